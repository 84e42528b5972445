import Verif.Spec.OldEdit
import Verif.Proofs.Edit
import Verif.Props.OldEmbed
/-! # Replacing values and entries in a legacy text -/
set_option autoImplicit false

namespace Verif
open Spec

variable {U : CharClass} {P : F64Parse}

theorem laidValue_eol {h : Option Str} {v : Value} {t : Str} (hl : LaidValue U P h v t) : ∀ x, h = some x → Eol x := by
  intro x hx
  cases hl <;> cases hx
  assumption

/-- As `Span`, for legacy values. -/
def OSpan (U : CharClass) (P : F64Parse) (v : Value) (h : Option Str) (s : Str) (G : Value → Option Str → Str → Prop) : Prop :=
  ∃ pre x post hx, s = pre ++ x ++ post ∧ LaidValue U P hx v x ∧ (∀ rest, Ending h rest → Ending hx (post ++ rest)) ∧
    ∀ h' v' x' rest, LaidValue U P h' v' x' → Ending h' (post ++ rest) → ∃ h'', Ending h'' rest ∧ G v' h'' (pre ++ x' ++ post)

theorem ospan_here {v : Value} {h : Option Str} {s : Str} (hl : LaidValue U P h v s) :
    OSpan U P v h s fun v' h'' t => LaidValue U P h'' v' t :=
  ⟨[], s, [], h, by simp, hl, fun _ h => h, fun h' v' x' rest hx he => ⟨h', he, by simpa using hx⟩⟩

theorem OSpan.wrap {v : Value} {h H : Option Str} {s : Str} {G G' : Value → Option Str → Str → Prop} (hs : OSpan U P v h s G)
    (p q : Str) (hq : ∀ rest, Ending H rest → Ending h (q ++ rest))
    (hG : ∀ v' h'' t rest, Ending h'' (q ++ rest) → G v' h'' t → ∃ H'', Ending H'' rest ∧ G' v' H'' (p ++ t ++ q)) :
    OSpan U P v H (p ++ s ++ q) G' := by
  obtain ⟨pre, x, post, hx, rfl, h1, h2, h3⟩ := hs
  refine ⟨p ++ pre, x, post ++ q, hx, by simp, h1, fun rest hr => ?_, fun h' v' x' rest h4 h5 => ?_⟩
  · have := h2 _ (hq rest hr)
    simpa using this
  · obtain ⟨h'', h6, h7⟩ := h3 h' v' x' (q ++ rest) h4 (by simpa using h5)
    obtain ⟨H'', h8, h9⟩ := hG v' h'' _ rest h6 h7
    exact ⟨H'', h8, by simpa using h9⟩

theorem OSpan.cast {v : Value} {h : Option Str} {s s' : Str} {G : Value → Option Str → Str → Prop} (hs : OSpan U P v h s G)
    (he : s = s') : OSpan U P v h s' G := he ▸ hs

theorem laidListTail_mem {vs : List Value} {s : Str} : LaidListTail U P vs s → ']' ∈ s
  | .last s h => laidTupleEnd_mem h
  | .more l m t s h e es _ _ _ ht _ => by simp [laidListTail_mem ht]

theorem laidEntryEnd_mem {n : Str} (h : LaidEntryEnd n) : ∃ c, c ∈ n ∧ c ≠ '\r' := by
  cases h with
  | comma l _ => exact ⟨',', by simp, by decide⟩
  | newline n h => exact ⟨'\n', lineEnds_mem h, by decide⟩

theorem laidEntry_eol {h : Option Str} {k : Key} {v : Value} {s : Str} (hl : LaidEntry U P h k v s) : ∀ x, h = some x → Eol x := by
  intro x hx
  cases hl with
  | «attribute» _ _ _ _ _ _ _ _ _ _ _ hv => exact laidValue_eol hv x hx
  | _ => cases hx

mutual
theorem ospan_value : ∀ {h : Option Str} {E : Value} {s : Str}, LaidValue U P h E s → ∀ (C : OldPlace) (v : Value), NeedsEquals v →
    E = C.fill v → OSpan U P v h s fun v' h'' t => LaidValue U P h'' (C.fill v') t
  | _, _, _, hl@(.null), .here, v, hv, hE => by
    simp only [OldPlace.fill] at hE ⊢; subst hE; exact ospan_here hl
  | _, _, _, hl@(.true), .here, v, hv, hE => by
    simp only [OldPlace.fill] at hE ⊢; subst hE; exact ospan_here hl
  | _, _, _, hl@(.false), .here, v, hv, hE => by
    simp only [OldPlace.fill] at hE ⊢; subst hE; exact ospan_here hl
  | _, _, _, hl@(.number _ _ _ _ _), .here, v, hv, hE => by
    simp only [OldPlace.fill] at hE ⊢; subst hE; exact ospan_here hl
  | _, _, _, hl@(.quoted _ _ _), .here, v, hv, hE => by
    simp only [OldPlace.fill] at hE ⊢; subst hE; exact ospan_here hl
  | _, _, _, hl@(.heredoc _ _ _ _ _), .here, v, hv, hE => by
    simp only [OldPlace.fill] at hE ⊢; subst hE; exact ospan_here hl
  | _, _, _, hl@(.list _ _ _), .here, v, hv, hE => by
    simp only [OldPlace.fill] at hE ⊢; subst hE; exact ospan_here hl
  | _, _, _, hl@(.map _ _ _ _ _), .here, v, hv, hE => by
    simp only [OldPlace.fill] at hE ⊢; subst hE; exact ospan_here hl
  | _, _, _, .number t n w h1 h2, .item a C b, v, hv, hE => by subst hE; cases h2
  | _, _, _, .number t n w h1 h2, .entry a k C b, v, hv, hE => by subst hE; cases h2
  | _, _, _, .number t n w h1 h2, .inBlock ls a k C b, v, hv, hE => by subst hE; cases h2
  | _, _, _, .list vs s hl, .item a C b, v, hv, hE => by
    injection hE with hE
    refine ((ospan_list hl a C b v hv hE).wrap (H := none) ['['] [] (fun _ _ => .none _) ?_).cast (by simp)
    rintro v' h'' t rest - ⟨rfl, h⟩
    exact ⟨none, .none _, by simpa [OldPlace.fill] using LaidValue.list _ _ h⟩
  | _, _, _, .map l es s hl he, .entry a k C b, v, hv, hE => by
    injection hE with hE
    injection hE with hE _
    injection hE with hE
    refine ((ospan_entries he a k C b v hv hE).wrap (H := none) (l ++ ['{']) ['}'] (fun _ _ => .none _) ?_).cast (by simp)
    rintro v' h'' t rest - ⟨rfl, h⟩
    exact ⟨none, .none _, by simpa [OldPlace.fill] using LaidValue.map l _ _ hl h⟩

theorem ospan_list : ∀ {vs : List Value} {s : Str}, LaidListBody U P vs s → ∀ (a : List Value) (C : OldPlace) (b : List Value)
    (v : Value), NeedsEquals v → vs = a ++ C.fill v :: b →
      OSpan U P v none s fun v' h'' t => h'' = none ∧ LaidListBody U P (a ++ C.fill v' :: b) t
  | _, _, .empty s hs, a, C, b, v, hv, hE => by simp at hE
  | _, _, .elems l t s h v0 vs hl ht hs hx, [], C, b, v, hv, hE => by
    injection hE with h1 h2
    subst h2
    refine ((ospan_value ht C v hv h1).wrap (H := none) l s (fun rest _ => Ending.append hx (laidValue_eol ht) rest) ?_)
    intro v' h'' t' rest hr h
    exact ⟨none, .none _, rfl, .elems l _ s _ _ _ hl h hs (hr.shrink (c := ']') (laidListTail_mem hs) (by decide))⟩
  | _, _, .elems l t s h v0 vs hl ht hs hx, x :: a, C, b, v, hv, hE => by
    injection hE with h1 h2
    subst h1
    refine ((ospan_tail hs a C b v hv h2).wrap (H := none) (l ++ t) [] (fun _ _ => .none _) ?_).cast (by simp)
    rintro v' h'' t' rest - ⟨rfl, h3, h4⟩
    refine ⟨none, .none _, rfl, ?_⟩
    have := LaidListBody.elems l t _ h _ _ hl ht h3 (h4 h ⟨hx, laidValue_eol ht⟩)
    simpa using this

theorem ospan_tail : ∀ {vs : List Value} {s : Str}, LaidListTail U P vs s → ∀ (a : List Value) (C : OldPlace) (b : List Value)
    (v : Value), NeedsEquals v → vs = a ++ C.fill v :: b →
      OSpan U P v none s fun v' h'' t => h'' = none ∧ LaidListTail U P (a ++ C.fill v' :: b) t ∧ ∀ h, Ending h s → Next h t
  | _, _, .last s hs, a, C, b, v, hv, hE => by simp at hE
  | _, _, .more l m t s h v0 vs hl hm ht hs hx, [], C, b, v, hv, hE => by
    injection hE with h1 h2
    subst h2
    refine ((ospan_value ht C v hv h1).wrap (H := none) (l ++ ',' :: m) s (fun rest _ => Ending.append hx (laidValue_eol ht) rest) ?_)
    intro v' h'' t' rest hr h
    refine ⟨none, .none _, rfl, .more l m _ s _ _ _ hl hm h hs (hr.shrink (c := ']') (laidListTail_mem hs) (by decide)), fun h0 h0' => ?_⟩
    have := (Ending.shrink (s := l ++ [',']) (r := m ++ t ++ s) (c := ',') (by simpa using h0') (by simp) (by decide)).append (m ++ t' ++ s)
    simpa using this
  | _, _, .more l m t s h v0 vs hl hm ht hs hx, x :: a, C, b, v, hv, hE => by
    injection hE with h1 h2
    subst h1
    refine ((ospan_tail hs a C b v hv h2).wrap (H := none) (l ++ ',' :: m ++ t) [] (fun _ _ => .none _) ?_).cast (by simp)
    rintro v' h'' t' rest - ⟨rfl, h3, h4⟩
    refine ⟨none, .none _, rfl, ?_, fun h0 h0' => ?_⟩
    · have := LaidListTail.more l m t _ h _ _ hl hm ht h3 (h4 h ⟨hx, laidValue_eol ht⟩)
      simpa using this
    · have := (Ending.shrink (s := l ++ [',']) (r := m ++ t ++ s) (c := ',') (by simpa using h0') (by simp) (by decide)).append (m ++ t ++ t')
      simpa using this

theorem ospan_entries : ∀ {es : List (Key × Value)} {s : Str}, LaidEntries U P es s → ∀ (a : List (Key × Value)) (k : Key)
    (C : OldPlace) (b : List (Key × Value)) (v : Value), NeedsEquals v → es = a ++ (k, C.fill v) :: b →
      OSpan U P v none s fun v' h'' t => h'' = none ∧ LaidEntries U P (a ++ (k, C.fill v') :: b) t
  | _, _, .done l hl, a, k, C, b, v, hv, hE => by simp at hE
  | _, _, .entry l s n t h k0 v0 es hl he hn hx hb, [], k, C, b, v, hv, hE => by
    injection hE with h1 h2
    injection h1 with h1 h3
    subst h2; subst h1
    refine ((ospan_entry he C v hv h3).wrap (H := none) l (n ++ t) (fun rest _ => ?_) ?_).cast (by simp)
    · rw [List.append_assoc]; exact Ending.append hx (laidEntry_eol he) _
    · intro v' h'' t' rest hr h'
      rw [List.append_assoc] at hr
      obtain ⟨c, hc, hc'⟩ := laidEntryEnd_mem hn
      exact ⟨none, .none _, rfl, by
        simpa using LaidEntries.entry l _ n t _ _ _ _ hl h' hn (hr.shrink (c := c) hc hc') hb⟩
  | _, _, .entry l s n t h k0 v0 es hl he hn hx hb, x :: a, k, C, b, v, hv, hE => by
    injection hE with h1 h2
    subst h1
    refine ((ospan_entries hb a k C b v hv h2).wrap (H := none) (l ++ s ++ n) [] (fun _ _ => .none _) ?_).cast (by simp)
    rintro v' h'' t' rest - ⟨rfl, h3⟩
    exact ⟨none, .none _, rfl, by simpa using LaidEntries.entry l s n _ _ _ _ _ hl he hn hx h3⟩

theorem ospan_entry : ∀ {h : Option Str} {k : Key} {E : Value} {s : Str}, LaidEntry U P h k E s → ∀ (C : OldPlace) (v : Value),
    NeedsEquals v → E = C.fill v → OSpan U P v h s fun v' h'' t => LaidEntry U P h'' k (C.fill v') t
  | h, _, _, _, .attribute ks l m t n _ k v0 hk hl hm ht hn hx, C, v, hv, hE => by
    refine ((ospan_value ht C v hv hE).wrap (H := h) (ks ++ l ++ '=' :: m) n (fun rest hr => ?_) ?_).cast (by simp)
    · by_cases h0 : h = none
      · subst h0; exact .none _
      · rw [hx h0]; exact hr
    · intro v' h'' t' rest hr h'
      have hn0 : h'' ≠ none → n = [] := fun h0 => hr.no_inline hn h0
      refine ⟨h'', ?_, by simpa using LaidEntry.attribute ks l m _ n _ _ _ hk hl hm h' hn hn0⟩
      by_cases h0 : h'' = none
      · subst h0; exact .none _
      · rw [hn0 h0] at hr; exact hr
  | _, _, _, _, .map i l s n es hi hl he hn, .here, v, hv, hE => by
    exact absurd hE.symm (hv.1 _)
  | _, _, _, _, .map i l s n es hi hl he hn, .entry a k C b, v, hv, hE => by
    injection hE with hE
    injection hE with hE _
    injection hE with hE
    refine ((ospan_entries he a k C b v hv hE).wrap (H := none) (i ++ l ++ ['{']) ('}' :: n) (fun _ _ => .none _) ?_).cast (by simp)
    rintro v' h'' t rest - ⟨rfl, h⟩
    exact ⟨none, .none _, by simpa [OldPlace.fill] using LaidEntry.map i l _ n _ hi hl h hn⟩
  | _, _, _, _, .block i ps l s n ls es hi hp h0 hl he hn, .here, v, hv, hE => by
    exact absurd hE.symm (hv.2 _)
  | _, _, _, _, .block i ps l s n ls es hi hp h0 hl he hn, .inBlock ls' a k C b, v, hv, hE => by
    injection hE with hE
    injection hE with hE
    injection hE with hE _
    injection hE with hE1 hE
    injection hE with hE
    subst hE1
    refine ((ospan_entries he a k C b v hv hE).wrap (H := none) (i ++ ps ++ l ++ ['{']) ('}' :: n) (fun _ _ => .none _) ?_).cast (by simp)
    rintro v' h'' t rest - ⟨rfl, h⟩
    exact ⟨none, .none _, by simpa [OldPlace.fill] using LaidEntry.block i ps l _ n _ _ hi hp h0 hl h hn⟩
end

theorem ospan_document {s : Str} (p : OldDocPlace) (v : Value) (hv : NeedsEquals v) (h : LaidOldDocument U P (p.fill v) s) :
    OSpan U P v none s fun v' h'' t => h'' = none → LaidOldDocument U P (p.fill v') t := by
  obtain ⟨a, k, C, b⟩ := p
  simp only [OldDocPlace.fill] at h ⊢
  generalize hE : a ++ (k, C.fill v) :: b = B at h
  cases h with
  | lines _ _ h =>
    refine ((ospan_entries h a k C b v hv hE.symm).wrap (H := none) [] [] (fun _ h => h) ?_).cast (by simp)
    rintro e' h'' t rest - ⟨rfl, h'⟩
    exact ⟨none, .none _, fun _ => .lines _ _ (by simpa using h')⟩
  | last b0 s k0 v0 t hb he =>
    rcases List.eq_nil_or_concat b with rfl | ⟨b', el', hb'⟩
    · have h1 : a = b0 ∧ k = k0 ∧ C.fill v = v0 := by
        have := List.append_inj' hE rfl
        injection this.2 with h1 _
        injection h1 with h1 h2
        exact ⟨this.1, h1, h2⟩
      obtain ⟨rfl, rfl, h1⟩ := h1
      refine ((ospan_entry he C v hv h1.symm).wrap (H := none) s [] (fun _ h => h) ?_).cast (by simp)
      intro e' h'' t' rest hr h'
      exact ⟨h'', hr, fun h0 => by subst h0; simpa using LaidOldDocument.last a s _ _ _ hb h'⟩
    · rw [List.concat_eq_append] at hb'
      subst hb'
      have h1 : a ++ (k, C.fill v) :: b' = b0 ∧ el' = (k0, v0) := by
        have := List.append_inj' (s₁ := a ++ (k, C.fill v) :: b') (t₁ := [el']) (s₂ := b0) (t₂ := [(k0, v0)]) (by simpa using hE) rfl
        exact ⟨this.1, by injection this.2⟩
      obtain ⟨h1, rfl⟩ := h1
      refine ((ospan_entries hb a k C b' v hv h1.symm).wrap (H := none) [] t (fun _ _ => .none _) ?_).cast (by simp)
      rintro e' h'' t' rest - ⟨rfl, h'⟩
      exact ⟨none, .none _, fun _ => by simpa using LaidOldDocument.last _ _ k0 v0 t h' he⟩

theorem laidListTail_noNl : ∀ {es : List Value} {s : Str}, LaidListTail U P es s → NoNl s
  | _, _, .last _ h => laidTupleEnd_noNl h
  | _, _, .more _ _ _ _ _ _ _ _ _ _ h _ => (laidListTail_noNl h).front _

theorem laidValue_noNl {v : Value} {s : Str} (h : LaidValue U P none v s) : NoNl s := by
  cases h with
  | null => exact ⟨['n', 'u', 'l'], 'l', rfl, by decide⟩
  | «true» => exact ⟨['t', 'r', 'u'], 'e', rfl, by decide⟩
  | «false» => exact ⟨['f', 'a', 'l', 's'], 'e', rfl, by decide⟩
  | number _ n _ h =>
    rcases List.eq_nil_or_concat s with rfl | ⟨p, c, rfl⟩
    · exact absurd rfl (isNumber_ne_nil h)
    · refine ⟨p, c, List.concat_eq_append, ?_⟩
      rintro rfl
      exact isNumber_no_nl (d := '\n') (by decide) h (by simp)
  | quoted src v _ => exact .end _ (by decide)
  | list es s h =>
    cases h with
    | empty _ h => exact (laidTupleEnd_noNl h).front ['[']
    | elems l t s _ _ _ _ _ h _ => exact (laidListTail_noNl h).front ('[' :: (l ++ t))
  | map l es s _ h => exact .end _ (by decide)

theorem laidEntry_noNl {k : Key} {v : Value} {s : Str} (h : LaidEntry U P none k v s) : NoNl s := by
  cases h with
  | «attribute» ks l m t n _ _ _ _ _ _ ht hn => exact noNl_inline ((laidValue_noNl ht).front _) hn
  | map i l s n es _ _ _ hn =>
    have := noNl_inline (NoNl.end (c := '}') (i ++ l ++ '{' :: s) (by decide)) hn
    simpa using this
  | block i ps l s n ls es _ _ _ _ _ hn =>
    have := noNl_inline (NoNl.end (c := '}') (i ++ ps ++ l ++ '{' :: s) (by decide)) hn
    simpa using this

theorem laidOldDocument_of_lines {es : List (Key × Value)} {s : Str} (hs : WholeLines s) (h : LaidOldDocument U P es s) : LaidEntries U P es s := by
  cases h with
  | lines _ _ h => exact h
  | last b s k v t _ he =>
    exfalso
    obtain ⟨p, c, rfl, hc⟩ := laidEntry_noNl he
    rcases hs with h | ⟨u, h⟩
    · simp at h
    · rw [← List.append_assoc] at h
      have := (List.append_inj' h rfl).2
      injection this with this
      exact hc this

theorem laidEntries_split : ∀ (a c : List (Key × Value)) {s : Str}, LaidEntries U P (a ++ c) s →
    ∃ p q, s = p ++ q ∧ LaidEntries U P a p ∧ LaidEntries U P c q
  | [], c, s, h => ⟨[], s, rfl, .done _ .nil, h⟩
  | x :: a, c, s, h => by
    rw [List.cons_append] at h
    cases h with
    | entry l s n t h _ _ _ hl he hn hx hb =>
      obtain ⟨p, q, rfl, h2, h3⟩ := laidEntries_split a c hb
      exact ⟨l ++ s ++ n ++ p, q, by simp, .entry l s n p h _ _ a hl he hn hx h2, h3⟩

/-- The piece of some entries. -/
def EntriesSpan (U : CharClass) (P : F64Parse) (p : EntriesPlace) (es : List (Key × Value)) (s : Str) : Prop :=
  ∃ pre x post, s = pre ++ x ++ post ∧ LaidEntries U P es x ∧
    ∀ es' y, LaidEntries U P es' y → LaidEntries U P (p.fill es') (pre ++ y ++ post)

theorem entries_body : ∀ (p : EntriesPlace) {es : List (Key × Value)} {s : Str}, LaidEntries U P (p.fill es) s → EntriesSpan U P p es s
  | .between a c, es, s, h => by
    simp only [EntriesSpan, EntriesPlace.fill, List.append_assoc] at h ⊢
    obtain ⟨p, q, rfl, h1, h2⟩ := laidEntries_split a (es ++ c) h
    obtain ⟨x, q, rfl, h3, h4⟩ := laidEntries_split es c h2
    exact ⟨p, x, q, by simp, h3, fun els' y hy => laidEntries_append h1 (laidEntries_append hy h4)⟩
  | .inObject a k p c, es, s, h => by
    simp only [EntriesSpan, EntriesPlace.fill] at h ⊢
    obtain ⟨s1, q, rfl, h1, h2⟩ := laidEntries_split a _ h
    cases h2 with
    | entry l s n t h0 _ _ _ hl he hn hx hb =>
      generalize hz : p.fill es = z at he
      cases he with
      | «attribute» ks l' m' t' n' _ _ _ hk hl' hm' hv hn' hx' =>
        cases hv with
        | number _ _ _ _ h => cases h
        | map l2 _ s2 hl2 he2 =>
          subst hz
          obtain ⟨pre, x, post, rfl, h4, h5⟩ := entries_body p he2
          refine ⟨s1 ++ l ++ ks ++ l' ++ '=' :: m' ++ l2 ++ '{' :: pre, x, post ++ '}' :: n' ++ n ++ t, by simp, h4, fun es' y hy => ?_⟩
          have := laidEntries_append h1 (.entry l _ n t none k _ c hl
            (.attribute ks l' m' _ n' _ k _ hk hl' hm' (.map l2 _ _ hl2 (h5 es' y hy)) hn' hx') hn hx hb)
          simpa using this
      | map i l2 s2 n2 _ hi hl2 he2 hn2 =>
        subst hz
        obtain ⟨pre, x, post, rfl, h4, h5⟩ := entries_body p he2
        refine ⟨s1 ++ l ++ i ++ l2 ++ '{' :: pre, x, post ++ '}' :: n2 ++ n ++ t, by simp, h4, fun es' y hy => ?_⟩
        have := laidEntries_append h1 (.entry l _ n t none _ _ c hl (.map i l2 _ n2 _ hi hl2 (h5 es' y hy) hn2) hn hx hb)
        simpa using this
  | .inBlock a k ls p c, es, s, h => by
    simp only [EntriesSpan, EntriesPlace.fill] at h ⊢
    obtain ⟨s1, q, rfl, h1, h2⟩ := laidEntries_split a _ h
    cases h2 with
    | entry l s n t h0 _ _ _ hl he hn hx hb =>
      generalize hz : p.fill es = z at he
      cases he with
      | «attribute» ks l' m' t' n' _ _ _ hk hl' hm' hv hn' hx' =>
        cases hv with
        | number _ _ _ _ h => cases h
      | block i ps l2 s2 n2 _ _ hi hp h0 hl2 he2 hn2 =>
        subst hz
        obtain ⟨pre, x, post, rfl, h4, h5⟩ := entries_body p he2
        refine ⟨s1 ++ l ++ i ++ ps ++ l2 ++ '{' :: pre, x, post ++ '}' :: n2 ++ n ++ t, by simp, h4, fun es' y hy => ?_⟩
        have := laidEntries_append h1 (.entry l _ n t none _ _ c hl (.block i ps l2 _ n2 ls _ hi hp h0 hl2 (h5 es' y hy) hn2) hn hx hb)
        simpa using this

end Verif
