import Verif.Proofs.Rename
import Verif.Proofs.OldEdit
/-! # Replacing names in a legacy text -/
set_option autoImplicit false

namespace Verif
open Spec

variable {U : CharClass} {P : F64Parse}

theorem named_oldIdent {n ks : Str} (hk : LaidOldKey U (.identifier (.borrowed n)) ks) :
    Named (IdentSpells U) n ks fun n' t => LaidOldKey U (.identifier (.borrowed n')) t := by
  generalize hz : Key.identifier (.borrowed n) = z at hk
  cases hk with
  | string => cases hz
  | ident i hi =>
    injection hz with hz; injection hz with _ hz; subst hz
    refine ⟨[], n, [], by simp, ⟨rfl, hi⟩, ?_⟩
    rintro n' x' ⟨e', hn'⟩
    subst e'
    simpa using LaidOldKey.ident x' hn'

theorem named_oldString {n ks : Str} (hk : LaidOldKey U (.string (.ownedS n)) ks) :
    Named QuotedName n ks fun n' t => LaidOldKey U (.string (.ownedS n')) t := by
  generalize hz : Key.string (.ownedS n) = z at hk
  cases hk with
  | ident => cases hz
  | string src v hc =>
    injection hz with hz; injection hz with _ hz; subst hz
    refine ⟨[], '"' :: src ++ ['"'], [], by simp, ⟨src, rfl, hc⟩, ?_⟩
    rintro n' x' ⟨src', rfl, hc'⟩
    simpa using LaidOldKey.string src' n' hc'

theorem named_oldLabels {n : Str} : ∀ (a b : List Str) {s : Str}, LaidOldLabels (a ++ n :: b) s →
    Named QuotedName n s fun n' t => LaidOldLabels (a ++ n' :: b) t
  | [], b, s, h => by
    simp only [List.nil_append] at h
    cases h with
    | cons l src v s ls hl hc h =>
      refine ⟨l, '"' :: src ++ ['"'], s, by simp, ⟨src, rfl, hc⟩, ?_⟩
      rintro n' x' ⟨src', rfl, hc'⟩
      simpa using LaidOldLabels.cons l src' n' s b hl hc' h
  | x :: a, b, s, h => by
    simp only [List.cons_append] at h
    cases h with
    | cons l src v s ls hl hc h =>
      refine ((named_oldLabels a b h).wrap (l ++ '"' :: src ++ ['"']) [] ?_).cast (by simp)
      intro n' t h'
      simpa using LaidOldLabels.cons l src x t _ hl hc h'

theorem named_listTailAt {Sp : Str → Str → Prop} {n : Str} {ef : Str → Value} : ∀ {es : List Value} {s : Str},
    LaidListTail U P es s → ∀ (a b : List Value), es = a ++ ef n :: b →
    (∀ h p, LaidValue U P h (ef n) p → Named Sp n p fun n' t => LaidValue U P h (ef n') t) →
    Named Sp n s fun n' t => LaidListTail U P (a ++ ef n' :: b) t ∧ ∀ h, Ending h s → Next h t
  | _, _, .last s hs, a, b, hE, _ => by simp at hE
  | _, _, .more l m t s h e0 es hl hm ht hs hx, [], b, hE, hP => by
    injection hE with h1 h2
    subst h2; subst h1
    refine ((hP h t ht).wrap (l ++ ',' :: m) s ?_)
    intro n' t' h'
    refine ⟨.more l m t' s h _ _ hl hm h' hs hx, fun h0 h0' => ?_⟩
    have := (Ending.shrink (s := l ++ [',']) (r := m ++ t ++ s) (c := ',') (by simpa using h0') (by simp) (by decide)).append (m ++ t' ++ s)
    simpa using this
  | _, _, .more l m t s h e0 es hl hm ht hs hx, x :: a, b, hE, hP => by
    injection hE with h1 h2
    subst h1
    refine ((named_listTailAt hs a b h2 hP).wrap (l ++ ',' :: m ++ t) [] ?_).cast (by simp)
    rintro n' t' ⟨h3, h4⟩
    refine ⟨?_, fun h0 h0' => ?_⟩
    · have := LaidListTail.more l m t _ h _ _ hl hm ht h3 (h4 h ⟨hx, laidValue_eol ht⟩)
      simpa using this
    · have := (Ending.shrink (s := l ++ [',']) (r := m ++ t ++ s) (c := ',') (by simpa using h0') (by simp) (by decide)).append (m ++ t ++ t')
      simpa using this

theorem named_listAt {Sp : Str → Str → Prop} {n : Str} {ef : Str → Value} {es : List Value} {s : Str} (hl : LaidListBody U P es s)
    (a b : List Value) (hE : es = a ++ ef n :: b)
    (hP : ∀ h p, LaidValue U P h (ef n) p → Named Sp n p fun n' t => LaidValue U P h (ef n') t) :
    Named Sp n s fun n' t => LaidListBody U P (a ++ ef n' :: b) t := by
  cases hl with
  | empty s hs => simp at hE
  | elems l t s h e0 es hl ht hs hx =>
    cases a with
    | nil =>
      injection hE with h1 h2
      subst h2; subst h1
      refine ((hP h t ht).wrap l s ?_)
      intro n' t' h'
      exact .elems l t' s h _ _ hl h' hs hx
    | cons x a =>
      injection hE with h1 h2
      subst h1
      refine ((named_listTailAt hs a b h2 hP).wrap (l ++ t) [] ?_).cast (by simp)
      rintro n' t' ⟨h3, h4⟩
      have := LaidListBody.elems l t _ h _ _ hl ht h3 (h4 h ⟨hx, laidValue_eol ht⟩)
      simpa using this

theorem named_entriesAt {Sp : Str → Str → Prop} {n : Str} {ef : Str → Key × Value} : ∀ {b0 : List (Key × Value)} {s : Str},
    LaidEntries U P b0 s → ∀ (a b : List (Key × Value)), b0 = a ++ ef n :: b →
    (∀ h s, LaidEntry U P h (ef n).1 (ef n).2 s → Named Sp n s fun n' t => LaidEntry U P h (ef n').1 (ef n').2 t) →
    Named Sp n s fun n' t => LaidEntries U P (a ++ ef n' :: b) t
  | _, _, .done l hl, a, b, hE, _ => by simp at hE
  | _, _, .entry l s k t h k0 v0 b0 hl he hk hx hb, [], b, hE, hP => by
    injection hE with h1 h2
    subst h2
    refine ((hP h s (by rw [← h1]; exact he)).wrap l (k ++ t) ?_).cast (by simp)
    intro n' t' h'
    simpa using LaidEntries.entry l t' k t h _ _ _ hl h' hk hx hb
  | _, _, .entry l s k t h k0 v0 b0 hl he hk hx hb, x :: a, b, hE, hP => by
    injection hE with h1 h2
    subst h1
    refine ((named_entriesAt hb a b h2 hP).wrap (l ++ s ++ k) [] ?_).cast (by simp)
    intro n' t' h'
    simpa using LaidEntries.entry l s k t' h _ _ _ hl he hk hx h'

mutual
theorem named_oldEntry (n : Str) : ∀ (p : OldEntryName) {h : Option Str} {k : Key} {v : Value} {s : Str}, LaidEntry U P h k v s →
    (k, v) = p.fill n → Named (p.Spells U) n s fun n' t => LaidEntry U P h (p.fill n').1 (p.fill n').2 t
  | .identKey v, h, _, _, _, hl, hE => by
    simp only [OldEntryName.fill] at hE
    injection hE with h1 h2
    subst h2
    show Named (IdentSpells U) _ _ _
    cases hl with
    | «attribute» ks l m t q _ _ _ hk hl hm ht hq hx =>
      subst h1
      refine ((named_oldIdent hk).wrap [] (l ++ '=' :: m ++ t ++ q) ?_).cast (by simp)
      intro n' t' h'
      simpa [OldEntryName.fill] using LaidEntry.attribute t' l m t q _ _ _ h' hl hm ht hq hx
    | map i l s q es hi hl he hq =>
      injection h1 with h1; injection h1 with _ h1; subst h1
      refine ⟨[], i, l ++ '{' :: s ++ '}' :: q, by simp, ⟨rfl, hi⟩, ?_⟩
      rintro n' x' ⟨e', hn'⟩
      subst e'
      simpa [OldEntryName.fill] using LaidEntry.map (U := U) (P := P) x' l s q es hn' hl he hq
    | block i ps l s q ls es hi hp h0 hl he hq =>
      injection h1 with h1; injection h1 with _ h1; subst h1
      refine ⟨[], i, ps ++ l ++ '{' :: s ++ '}' :: q, by simp, ⟨rfl, hi⟩, ?_⟩
      rintro n' x' ⟨e', hn'⟩
      subst e'
      simpa [OldEntryName.fill] using LaidEntry.block (U := U) (P := P) x' ps l s q ls es hn' hp h0 hl he hq
  | .stringKey v, h, _, _, _, hl, hE => by
    simp only [OldEntryName.fill] at hE
    injection hE with h1 h2
    subst h2
    show Named QuotedName _ _ _
    cases hl with
    | «attribute» ks l m t q _ _ _ hk hl hm ht hq hx =>
      subst h1
      refine ((named_oldString hk).wrap [] (l ++ '=' :: m ++ t ++ q) ?_).cast (by simp)
      intro n' t' h'
      simpa [OldEntryName.fill] using LaidEntry.attribute t' l m t q _ _ _ h' hl hm ht hq hx
    | map => cases h1
    | block => cases h1
  | .label k a b es, h, _, _, _, hl, hE => by
    simp only [OldEntryName.fill] at hE
    injection hE with h1 h2
    subst h1
    show Named QuotedName _ _ _
    cases hl with
    | «attribute» ks l m t q _ _ _ hk hl hm ht hq hx =>
      subst h2
      cases ht with
      | number _ _ _ _ h => cases h
    | map => cases h2
    | block i ps l s q ls es hi hp h0 hl he hq =>
      injection h2 with h2; injection h2 with h2; injection h2 with h2 _; injection h2 with h2 h3
      injection h3 with h3
      subst h2; subst h3
      refine ((named_oldLabels a b hp).wrap i (l ++ '{' :: s ++ '}' :: q) ?_).cast (by simp)
      intro n' t' h'
      simpa [OldEntryName.fill] using LaidEntry.block (U := U) (P := P) i t' l s q _ es hi h' (by simp) hl he hq
  | .inValue k p, h, _, _, _, hl, hE => by
    simp only [OldEntryName.fill] at hE
    injection hE with h1 h2
    subst h1
    simp only [OldEntryName.Spells]
    cases hl with
    | «attribute» ks l m t q _ _ _ hk hl hm ht hq hx =>
      refine ((named_oldValue n p ht h2).wrap (ks ++ l ++ '=' :: m) q ?_).cast (by simp)
      intro n' t' h'
      simpa [OldEntryName.fill] using LaidEntry.attribute ks l m t' q _ _ _ hk hl hm h' hq hx
    | map i l s q es hi hl he hq =>
      cases p with
      | item => cases h2
      | inBlock => cases h2
      | entry a p b =>
        simp only [OldValueName.fill] at h2
        injection h2 with h2; injection h2 with h2 _; injection h2 with h2
        simp only [OldValueName.Spells]
        refine ((named_entriesAt (ef := p.fill) he a b h2 fun h s hs => named_oldEntry n p hs rfl).wrap (i ++ l ++ ['{']) ('}' :: q) ?_).cast (by simp)
        intro n' t' h'
        simpa [OldEntryName.fill, OldValueName.fill] using LaidEntry.map (U := U) (P := P) i l t' q _ hi hl h' hq
    | block i ps l s q ls es hi hp h0 hl he hq =>
      cases p with
      | item => cases h2
      | entry => cases h2
      | inBlock ls' a p b =>
        simp only [OldValueName.fill] at h2
        injection h2 with h2; injection h2 with h2; injection h2 with h2 _; injection h2 with h2 h3
        injection h3 with h3
        subst h2
        simp only [OldValueName.Spells]
        refine ((named_entriesAt (ef := p.fill) he a b h3 fun h s hs => named_oldEntry n p hs rfl).wrap (i ++ ps ++ l ++ ['{']) ('}' :: q) ?_).cast (by simp)
        intro n' t' h'
        simpa [OldEntryName.fill, OldValueName.fill] using LaidEntry.block (U := U) (P := P) i ps l t' q _ _ hi hp h0 hl h' hq

theorem named_oldValue (n : Str) : ∀ (p : OldValueName) {h : Option Str} {v : Value} {s : Str}, LaidValue U P h v s →
    v = p.fill n → Named (p.Spells U) n s fun n' t => LaidValue U P h (p.fill n') t
  | .item a p b, h, _, _, hl, hE => by
    simp only [OldValueName.fill] at hE
    simp only [OldValueName.Spells]
    cases hl with
    | number _ _ _ _ h => subst hE; cases h
    | list vs s ht =>
      injection hE with hE
      refine ((named_listAt (ef := p.fill) ht a b hE fun h q hq => named_oldValue n p hq rfl).wrap ['['] [] ?_).cast (by simp)
      intro n' t h
      simpa [OldValueName.fill] using LaidValue.list _ t h
    | _ => cases hE
  | .entry a p b, h, _, _, hl, hE => by
    simp only [OldValueName.fill] at hE
    simp only [OldValueName.Spells]
    cases hl with
    | number _ _ _ _ h => subst hE; cases h
    | map l es s hl he =>
      injection hE with hE; injection hE with hE _; injection hE with hE
      refine ((named_entriesAt (ef := p.fill) he a b hE fun h s hs => named_oldEntry n p hs rfl).wrap (l ++ ['{']) ['}'] ?_).cast (by simp)
      intro n' t h
      simpa [OldValueName.fill] using LaidValue.map l _ t hl h
    | _ => cases hE
  | .inBlock ls a p b, h, _, _, hl, hE => by
    simp only [OldValueName.fill] at hE
    cases hl with
    | number _ _ _ _ h => subst hE; cases h
    | _ => cases hE
end

theorem named_oldDocument {s : Str} (p : OldDocName) (n : Str) (h : LaidOldDocument U P (p.fill n) s) :
    Named (p.place.Spells U) n s fun n' t => LaidOldDocument U P (p.fill n') t := by
  obtain ⟨a, p, b⟩ := p
  simp only [OldDocName.fill] at h ⊢
  generalize hE : a ++ p.fill n :: b = B at h
  cases h with
  | lines _ _ h =>
    exact (named_entriesAt (ef := p.fill) h a b hE.symm fun h s hs => named_oldEntry n p hs rfl).mono fun n' t h => .lines _ _ h
  | last b0 s k0 v0 t hb he =>
    rcases List.eq_nil_or_concat b with rfl | ⟨b', el', hb'⟩
    · have h1 : a = b0 ∧ p.fill n = (k0, v0) := by
        have := List.append_inj' hE rfl
        exact ⟨this.1, by injection this.2⟩
      obtain ⟨rfl, h1⟩ := h1
      refine ((named_oldEntry n p he h1.symm).wrap s [] ?_).cast (by simp)
      intro n' t' h'
      simpa using LaidOldDocument.last a s _ _ _ hb h'
    · rw [List.concat_eq_append] at hb'
      subst hb'
      have h1 : a ++ p.fill n :: b' = b0 ∧ el' = (k0, v0) := by
        have := List.append_inj' (s₁ := a ++ p.fill n :: b') (t₁ := [el']) (s₂ := b0) (t₂ := [(k0, v0)]) (by simpa using hE) rfl
        exact ⟨this.1, by injection this.2⟩
      obtain ⟨h1, rfl⟩ := h1
      refine ((named_entriesAt (ef := p.fill) hb a b' h1.symm fun h s hs => named_oldEntry n p hs rfl).wrap [] t ?_).cast (by simp)
      intro n' t' h'
      simpa using LaidOldDocument.last _ _ k0 v0 t h' he

end Verif
