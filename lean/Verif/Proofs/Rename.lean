import Verif.Spec.Rename
import Verif.Proofs.Edit
import Verif.Props.Laid
/-! # Replacing names in a text -/
set_option autoImplicit false

namespace Verif
open Spec

variable {U : CharClass}

/-- `s` contains a text spelling `n`, and with any other spelling there, of any other name, the result is as `G` says. -/
def Named (Sp : Str → Str → Prop) (n s : Str) (G : Str → Str → Prop) : Prop :=
  ∃ pre x post, s = pre ++ x ++ post ∧ Sp n x ∧ ∀ n' x', Sp n' x' → G n' (pre ++ x' ++ post)

theorem Named.wrap {Sp : Str → Str → Prop} {n s : Str} {G G' : Str → Str → Prop} (h : Named Sp n s G) (p q : Str)
    (hG : ∀ n' t, G n' t → G' n' (p ++ t ++ q)) : Named Sp n (p ++ s ++ q) G' := by
  obtain ⟨pre, x, post, rfl, h1, h2⟩ := h
  refine ⟨p ++ pre, x, post ++ q, by simp, h1, fun n' x' h' => ?_⟩
  have := hG _ _ (h2 n' x' h')
  simpa using this

theorem Named.cast {Sp : Str → Str → Prop} {n s s' : Str} {G : Str → Str → Prop} (h : Named Sp n s G) (e : s = s') :
    Named Sp n s' G := e ▸ h

theorem Named.mono {Sp : Str → Str → Prop} {n s : Str} {G G' : Str → Str → Prop} (h : Named Sp n s G)
    (hG : ∀ n' t, G n' t → G' n' t) : Named Sp n s G' := by
  obtain ⟨pre, x, post, e, h1, h2⟩ := h
  exact ⟨pre, x, post, e, h1, fun n' x' h' => hG _ _ (h2 n' x' h')⟩

/-- An identifier as its own spelling. -/
def IdentSpells (U : CharClass) (n x : Str) : Prop := x = n ∧ IsIdent U n

theorem named_attribute {h : Option Str} {k : Str} {e : Expr} {s : Str} (hl : LaidAttribute U h (.borrowed k) e s) :
    Named (IdentSpells U) k s fun n' t => LaidAttribute U h (.borrowed n') e t := by
  generalize hk : CowStr.borrowed k = k' at hl
  cases hl with
  | mk i l m t n _ _ hi hl hm ht hn hx =>
    injection hk with _ hk; subst hk
    refine ⟨[], k, l ++ '=' :: m ++ t ++ n, by simp, ⟨rfl, hi⟩, ?_⟩
    rintro n' x' ⟨e', hn'⟩
    subst e'
    have := LaidAttribute.mk x' l m t n h e hn' hl hm ht hn hx
    simpa using this

theorem ident_isHead {i : Str} (h : IsIdent U i) (s : Str) : Head (IdentChar U) (i ++ s) := by
  cases h with
  | mk c cs hc _ => exact ⟨c, cs ++ s, rfl, identStart_identChar hc⟩

/-- What follows a run of inline layout does not matter to its first character, unless there is none. -/
theorem inline_head_swap {l : Str} (hl : AnyInline l) {a b : Str} (hab : ¬ Head (IdentChar U) a → ¬ Head (IdentChar U) b)
    (h : ¬ Head (IdentChar U) (l ++ a)) : ¬ Head (IdentChar U) (l ++ b) := by
  cases hl with
  | nil => exact hab h
  | cons j l hj _ =>
    rw [List.append_assoc]
    exact not_head (layoutItem_head (inlineItem_layout hj)) fun _ => layoutStart_not_identChar

theorem named_identLabel {before after : List BlockLabel} {n s : Str}
    (hl : LaidLabels U (before ++ .identifier (.borrowed n) :: after) s) :
    Named (IdentSpells U) n s fun n' t =>
      LaidLabels U (before ++ .identifier (.borrowed n') :: after) t ∧ (¬ Head (IdentChar U) s → ¬ Head (IdentChar U) t) := by
  generalize hz : before ++ .identifier (.borrowed n) :: after = z at hl
  induction hl generalizing before with
  | «open» => simp at hz
  | ident l i s ls hl hi hs h ih =>
    cases before with
    | nil =>
      injection hz with h1 h2
      injection h1 with h1; injection h1 with _ h1
      subst h1; subst h2
      refine ⟨l, n, s, rfl, ⟨rfl, hi⟩, ?_⟩
      rintro n' _ ⟨rfl, hn'⟩
      refine ⟨.ident _ _ _ _ hl hn' hs h, ?_⟩
      simp only [List.append_assoc]
      exact inline_head_swap hl fun h0 => absurd (ident_isHead hi s) h0
    | cons b before =>
      injection hz with h1 h2
      subst h1
      refine ((ih h2).wrap (l ++ i) [] ?_).cast (by simp)
      rintro n' t ⟨h3, h4⟩
      refine ⟨by simpa using LaidLabels.ident l i t _ hl hi (h4 hs) h3, ?_⟩
      simp only [List.append_assoc, List.append_nil]
      exact inline_head_swap hl fun h0 => absurd (ident_isHead hi s) h0
  | string l src v s ls hl hc h ih =>
    cases before with
    | nil => injection hz with h1 h2; cases h1
    | cons b before =>
      injection hz with h1 h2
      subst h1
      refine ((ih h2).wrap (l ++ '"' :: src ++ ['"']) [] ?_).cast (by simp)
      rintro n' t ⟨h3, h4⟩
      refine ⟨by simpa using LaidLabels.string l src v t _ hl hc h3, fun h0 => ?_⟩
      have h0 : ¬ Head (IdentChar U) (l ++ '"' :: (src ++ '"' :: s)) := by simpa using h0
      have := inline_head_swap (b := '"' :: (src ++ '"' :: t)) hl (fun _ => by
        rw [head_cons]; exact not_identChar (by decide) (by decide)) h0
      simpa using this

theorem named_stringLabel {before after : List BlockLabel} {n s : Str}
    (hl : LaidLabels U (before ++ .stringLiteral n :: after) s) :
    Named QuotedName n s fun n' t =>
      LaidLabels U (before ++ .stringLiteral n' :: after) t ∧ (¬ Head (IdentChar U) s → ¬ Head (IdentChar U) t) := by
  generalize hz : before ++ .stringLiteral n :: after = z at hl
  induction hl generalizing before with
  | «open» => simp at hz
  | ident l i s ls hl hi hs h ih =>
    cases before with
    | nil => injection hz with h1 h2; cases h1
    | cons b before =>
      injection hz with h1 h2
      subst h1
      refine ((ih h2).wrap (l ++ i) [] ?_).cast (by simp)
      rintro n' t ⟨h3, h4⟩
      refine ⟨by simpa using LaidLabels.ident l i t _ hl hi (h4 hs) h3, ?_⟩
      simp only [List.append_assoc, List.append_nil]
      exact inline_head_swap hl fun h0 => absurd (ident_isHead hi s) h0
  | string l src v s ls hl hc h ih =>
    have hq : ∀ x y, ¬ Head (IdentChar U) (l ++ '"' :: x) → ¬ Head (IdentChar U) (l ++ '"' :: y) := fun x y h0 =>
      inline_head_swap hl (fun _ => by rw [head_cons]; exact not_identChar (by decide) (by decide)) h0
    cases before with
    | nil =>
      injection hz with h1 h2
      injection h1 with h1
      subst h1; subst h2
      refine ⟨l, '"' :: src ++ ['"'], s, by simp, ⟨src, rfl, hc⟩, ?_⟩
      rintro n' _ ⟨src', rfl, hc'⟩
      refine ⟨by simpa using LaidLabels.string l src' n' s _ hl hc' h, fun h0 => ?_⟩
      have := hq (src ++ '"' :: s) (src' ++ '"' :: s) (by simpa using h0)
      simpa using this
    | cons b before =>
      injection hz with h1 h2
      subst h1
      refine ((ih h2).wrap (l ++ '"' :: src ++ ['"']) [] ?_).cast (by simp)
      rintro n' t ⟨h3, h4⟩
      refine ⟨by simpa using LaidLabels.string l src v t _ hl hc h3, fun h0 => ?_⟩
      have := hq (src ++ '"' :: s) (src ++ '"' :: t) (by simpa using h0)
      simpa using this

theorem named_header_type {n s : Str} {ls : List BlockLabel} (hl : LaidHeader U (.borrowed n) ls s) :
    Named (IdentSpells U) n s fun n' t => LaidHeader U (.borrowed n') ls t := by
  generalize hk : CowStr.borrowed n = k' at hl
  cases hl with
  | mk i s _ hi hs h =>
    injection hk with _ hk; subst hk
    refine ⟨[], n, s, by simp, ⟨rfl, hi⟩, ?_⟩
    rintro n' x' ⟨e', hn'⟩
    subst e'
    exact .mk x' s _ hn' hs h

theorem named_header_ident {i : CowStr} {before after : List BlockLabel} {n s : Str}
    (hl : LaidHeader U i (before ++ .identifier (.borrowed n) :: after) s) :
    Named (IdentSpells U) n s fun n' t => LaidHeader U i (before ++ .identifier (.borrowed n') :: after) t := by
  cases hl with
  | mk i s _ hi hs h =>
    refine ((named_identLabel h).wrap i [] ?_).cast (by simp)
    rintro n' t ⟨h1, h2⟩
    simpa using LaidHeader.mk i t _ hi (h2 hs) h1

theorem named_header_string {i : CowStr} {before after : List BlockLabel} {n s : Str}
    (hl : LaidHeader U i (before ++ .stringLiteral n :: after) s) :
    Named QuotedName n s fun n' t => LaidHeader U i (before ++ .stringLiteral n' :: after) t := by
  cases hl with
  | mk i s _ hi hs h =>
    refine ((named_stringLabel h).wrap i [] ?_).cast (by simp)
    rintro n' t ⟨h1, h2⟩
    simpa using LaidHeader.mk i t _ hi (h2 hs) h1

theorem named_identKey {n ks : Str} (hk : LaidKey U (.ident (.borrowed n)) ks) :
    Named (IdentSpells U) n ks fun n' t => LaidKey U (.ident (.borrowed n')) t := by
  generalize hz : ObjKey.ident (.borrowed n) = z at hk
  cases hk with
  | expr => cases hz
  | ident i hi =>
    injection hz with hz; injection hz with _ hz; subst hz
    refine ⟨[], n, [], by simp, ⟨rfl, hi⟩, ?_⟩
    rintro n' x' ⟨e', hn'⟩
    subst e'
    simpa using LaidKey.ident x' hn'

theorem named_exprKey {n ks : Str} (hk : LaidKey U (.expr (.borrowed n)) ks) :
    Named (fun n x => x = n ∧ ExprKey U n) n ks fun n' t => LaidKey U (.expr (.borrowed n')) t := by
  generalize hz : ObjKey.expr (.borrowed n) = z at hk
  cases hk with
  | ident => cases hz
  | expr t e h1 h2 h3 =>
    injection hz with hz; injection hz with _ hz; subst hz
    refine ⟨[], n, [], by simp, ⟨rfl, ⟨e, (Props.c15_every_expression_layout_is_read U n e).2 h3⟩, h1, h2⟩, ?_⟩
    rintro n' x' ⟨e', ⟨e, h3'⟩, h1', h2'⟩
    subst e'
    simpa using LaidKey.expr x' e h1' h2' ((Props.c15_every_expression_layout_is_read U x' e).1 h3')

/-- An object in which a part of one pair may be replaced. -/
theorem named_objectAt {Sp : Str → Str → Prop} {n : Str} {kf : Str → ObjKey} {ef : Str → Expr} : ∀ {es : List (ObjKey × Expr)} {s : Str},
    LaidObject U es s → ∀ (a b : List (ObjKey × Expr)), es = a ++ (kf n, ef n) :: b →
    (∀ h p, LaidPair U h (kf n) (ef n) p → Named Sp n p fun n' t => LaidPair U h (kf n') (ef n') t) →
    Named Sp n s fun n' t => LaidObject U (a ++ (kf n', ef n') :: b) t
  | _, _, .close l hl, a, b, hE, _ => by simp at hE
  | _, _, .comma p l s k0 e0 es hp hl ho, [], b, hE, hP => by
    injection hE with h1 h2
    injection h1 with h1 h3
    subst h2; subst h1; subst h3
    refine ((hP none p hp).wrap [] (l ++ ',' :: s) ?_).cast (by simp)
    intro n' t h
    simpa using LaidObject.comma t l s _ _ _ h hl ho
  | _, _, .comma p l s k0 e0 es hp hl ho, x :: a, b, hE, hP => by
    injection hE with h1 h2
    subst h1
    refine ((named_objectAt ho a b h2 hP).wrap (p ++ l ++ [',']) [] ?_).cast (by simp)
    intro n' t h
    simpa using LaidObject.comma p l _ _ _ _ hp hl h
  | _, _, .newline p l m s h0 k0 e0 es hp hl hn hx ho, [], b, hE, hP => by
    injection hE with h1 h2
    injection h1 with h1 h3
    subst h2; subst h1; subst h3
    refine ((hP h0 p hp).wrap [] (l ++ m ++ s) ?_).cast (by simp)
    intro n' t h
    simpa using LaidObject.newline t l m s _ _ _ _ h hl hn hx ho
  | _, _, .newline p l m s h0 k0 e0 es hp hl hn hx ho, x :: a, b, hE, hP => by
    injection hE with h1 h2
    subst h1
    refine ((named_objectAt ho a b h2 hP).wrap (p ++ l ++ m) [] ?_).cast (by simp)
    intro n' t h
    simpa using LaidObject.newline p l m _ _ _ _ _ hp hl hn hx h
  | _, _, .last p l k0 e0 hp hl, [], b, hE, hP => by
    injection hE with h1 h2
    injection h1 with h1 h3
    subst h2; subst h1; subst h3
    refine ((hP none p hp).wrap [] (l ++ ['}']) ?_).cast (by simp)
    intro n' t h
    simpa using LaidObject.last t l _ _ h hl
  | _, _, .last p l k0 e0 hp hl, x :: a, b, hE, _ => by simp at hE

/-- A tuple in which a part of one item may be replaced. -/
theorem named_tailAt {Sp : Str → Str → Prop} {n : Str} {ef : Str → Expr} : ∀ {es : List Expr} {s : Str},
    LaidTail U es s → ∀ (a b : List Expr), es = a ++ ef n :: b →
    (∀ h p, LaidExpr U h (ef n) p → Named Sp n p fun n' t => LaidExpr U h (ef n') t) →
    Named Sp n s fun n' t => LaidTail U (a ++ ef n' :: b) t ∧ ∀ h, Ending h s → Next h t
  | _, _, .last s hs, a, b, hE, _ => by simp at hE
  | _, _, .more l m t s h e0 es hl hm ht hs hx, [], b, hE, hP => by
    injection hE with h1 h2
    subst h2; subst h1
    refine ((hP h t ht).wrap (l ++ ',' :: m) s ?_)
    intro n' t' h'
    refine ⟨.more l m t' s h _ _ hl hm h' hs hx, fun h0 h0' => ?_⟩
    have := (Ending.shrink (s := l ++ [',']) (r := m ++ t ++ s) (c := ',') (by simpa using h0') (by simp) (by decide)).append (m ++ t' ++ s)
    simpa using this
  | _, _, .more l m t s h e0 es hl hm ht hs hx, x :: a, b, hE, hP => by
    injection hE with h1 h2
    subst h1
    refine ((named_tailAt hs a b h2 hP).wrap (l ++ ',' :: m ++ t) [] ?_).cast (by simp)
    rintro n' t' ⟨h3, h4⟩
    refine ⟨?_, fun h0 h0' => ?_⟩
    · have := LaidTail.more l m t _ h _ _ hl hm ht h3 (h4 h ⟨hx, laidExpr_eol ht⟩)
      simpa using this
    · have := (Ending.shrink (s := l ++ [',']) (r := m ++ t ++ s) (c := ',') (by simpa using h0') (by simp) (by decide)).append (m ++ t ++ t')
      simpa using this

theorem named_tupleAt {Sp : Str → Str → Prop} {n : Str} {ef : Str → Expr} {es : List Expr} {s : Str} (hl : LaidTuple U es s)
    (a b : List Expr) (hE : es = a ++ ef n :: b)
    (hP : ∀ h p, LaidExpr U h (ef n) p → Named Sp n p fun n' t => LaidExpr U h (ef n') t) :
    Named Sp n s fun n' t => LaidTuple U (a ++ ef n' :: b) t := by
  cases hl with
  | empty s hs => simp at hE
  | elems l t s h e0 es hl ht hs hx =>
    cases a with
    | nil =>
      injection hE with h1 h2
      subst h2; subst h1
      refine ((hP h t ht).wrap l s ?_)
      intro n' t' h'
      exact .elems l t' s h _ _ hl h' hs hx
    | cons x a =>
      injection hE with h1 h2
      subst h1
      refine ((named_tailAt hs a b h2 hP).wrap (l ++ t) [] ?_).cast (by simp)
      rintro n' t' ⟨h3, h4⟩
      have := LaidTuple.elems l t _ h _ _ hl ht h3 (h4 h ⟨hx, laidExpr_eol ht⟩)
      simpa using this

theorem named_brackets {Sp : Str → Str → Prop} {n : Str} {ef : Str → Expr}
    (hn : (∃ es, ef n = .object es) ∨ ∃ es, ef n = .tuple es)
    (ho : ∀ l es s, AnyLayout l → LaidObject U es s → ef n = .object es →
      Named Sp n (l ++ '{' :: s) fun n' t => LaidExpr U none (ef n') t)
    (ht : ∀ es s, LaidTuple U es s → ef n = .tuple es → Named Sp n ('[' :: s) fun n' t => LaidExpr U none (ef n') t) :
    ∀ {h : Option Str} {E : Expr} {s : Str}, LaidExpr U h E s → E = ef n → Named Sp n s fun n' t => LaidExpr U h (ef n') t
  | _, _, _, .null, hE => by rcases hn with ⟨_, h⟩ | ⟨_, h⟩ <;> rw [h] at hE <;> cases hE
  | _, _, _, .true, hE => by rcases hn with ⟨_, h⟩ | ⟨_, h⟩ <;> rw [h] at hE <;> cases hE
  | _, _, _, .false, hE => by rcases hn with ⟨_, h⟩ | ⟨_, h⟩ <;> rw [h] at hE <;> cases hE
  | _, _, _, .number _ _ _, hE => by rcases hn with ⟨_, h⟩ | ⟨_, h⟩ <;> rw [h] at hE <;> cases hE
  | _, _, _, .quoted _ _ _, hE => by rcases hn with ⟨_, h⟩ | ⟨_, h⟩ <;> rw [h] at hE <;> cases hE
  | _, _, _, .heredoc _ _ _ _ _, hE => by rcases hn with ⟨_, h⟩ | ⟨_, h⟩ <;> rw [h] at hE <;> cases hE
  | _, _, _, .tuple es s h, hE => ht es s h hE.symm
  | _, _, _, .object l es s hl h, hE => ho l es s hl h hE.symm
  | _, _, _, .bracket l m k t h0 e0 hl hm he hk hx, hE => by
    refine ((named_brackets hn ho ht he hE).wrap (l ++ '(' :: m) (k ++ [')']) ?_).cast (by simp)
    intro n' t' h'
    simpa using LaidExpr.bracket l m k t' h0 _ hl hm h' hk hx

theorem named_expr (n : Str) : ∀ (p : KeyPlace) {h : Option Str} {E : Expr} {s : Str}, LaidExpr U h E s → E = p.fill n →
    Named (p.Spells U) n s fun n' t => LaidExpr U h (p.fill n') t
  | .identKey a e b, _, _, _, hl, hE => by
    refine named_brackets (ef := (KeyPlace.identKey a e b).fill) (.inl ⟨_, rfl⟩) (fun l es s hl ho h => ?_) (fun _ _ _ h => by cases h) hl hE
    injection h with h
    refine ((named_objectAt (kf := fun n => .ident (.borrowed n)) (ef := fun _ => e) (Sp := IdentSpells U) ho a b h.symm
      fun h p hp => ?_).wrap (l ++ ['{']) [] ?_).cast (by simp)
    · generalize hz : ObjKey.ident (.borrowed n) = z at hp
      cases hp with
      | mk l ks m q t _ _ _ hl hk hm hq ht =>
        subst hz
        refine ((named_identKey hk).wrap l (m ++ '=' :: q ++ t) ?_).cast (by simp)
        intro n' t' h'
        simpa using LaidPair.mk l t' m q t _ _ _ hl h' hm hq ht
    · intro n' t h
      simpa [KeyPlace.fill] using LaidExpr.object l _ t hl h
  | .exprKey a e b, _, _, _, hl, hE => by
    refine named_brackets (ef := (KeyPlace.exprKey a e b).fill) (.inl ⟨_, rfl⟩) (fun l es s hl ho h => ?_) (fun _ _ _ h => by cases h) hl hE
    injection h with h
    refine ((named_objectAt (kf := fun n => .expr (.borrowed n)) (ef := fun _ => e) (Sp := fun n x => x = n ∧ ExprKey U n) ho a b h.symm
      fun h p hp => ?_).wrap (l ++ ['{']) [] ?_).cast (by simp)
    · generalize hz : ObjKey.expr (.borrowed n) = z at hp
      cases hp with
      | mk l ks m q t _ _ _ hl hk hm hq ht =>
        subst hz
        refine ((named_exprKey hk).wrap l (m ++ '=' :: q ++ t) ?_).cast (by simp)
        intro n' t' h'
        simpa using LaidPair.mk l t' m q t _ _ _ hl h' hm hq ht
    · intro n' t h
      simpa [KeyPlace.fill] using LaidExpr.object l _ t hl h
  | .item a p b, _, _, _, hl, hE => by
    refine named_brackets (ef := (KeyPlace.item a p b).fill) (.inr ⟨_, rfl⟩) (fun _ _ _ _ _ h => by cases h) (fun es s ht h => ?_) hl hE
    injection h with h
    refine ((named_tupleAt (ef := p.fill) (Sp := p.Spells U) ht a b h.symm fun h q hq => named_expr n p hq rfl).wrap ['['] [] ?_).cast (by simp)
    intro n' t h
    simpa [KeyPlace.fill] using LaidExpr.tuple _ t h
  | .value a k p b, _, _, _, hl, hE => by
    refine named_brackets (ef := (KeyPlace.value a k p b).fill) (.inl ⟨_, rfl⟩) (fun l es s hl ho h => ?_) (fun _ _ _ h => by cases h) hl hE
    injection h with h
    refine ((named_objectAt (kf := fun _ => k) (ef := p.fill) (Sp := p.Spells U) ho a b h.symm
      fun h q hp => ?_).wrap (l ++ ['{']) [] ?_).cast (by simp)
    · generalize hz : p.fill n = z at hp
      cases hp with
      | mk l ks m q t _ _ _ hl hk hm hq ht =>
        refine ((named_expr n p ht hz.symm).wrap (l ++ ks ++ m ++ '=' :: q) [] ?_).cast (by simp)
        intro n' t' h'
        simpa using LaidPair.mk l ks m q t' _ _ _ hl hk hm hq h'
    · intro n' t h
      simpa [KeyPlace.fill] using LaidExpr.object l _ t hl h

theorem named_value {h : Option Str} {i : CowStr} {s : Str} (p : KeyPlace) (n : Str) (hl : LaidAttribute U h i (p.fill n) s) :
    Named (p.Spells U) n s fun n' t => LaidAttribute U h i (p.fill n') t := by
  generalize hz : p.fill n = z at hl
  cases hl with
  | mk i l m t k _ _ hi hl hm ht hk hx =>
    refine ((named_expr n p ht hz.symm).wrap (i ++ l ++ '=' :: m) k ?_).cast (by simp)
    intro n' t' h'
    simpa using LaidAttribute.mk i l m t' k h _ hi hl hm h' hk hx

theorem named_bodyAt {Sp : Str → Str → Prop} {n : Str} {ef : Str → BodyElement} : ∀ {b0 : Body} {s : Str}, LaidBody U b0 s →
    ∀ (a b : Body), b0 = a ++ ef n :: b →
    (∀ h s, LaidElement U h (ef n) s → Named Sp n s fun n' t => LaidElement U h (ef n') t) →
    Named Sp n s fun n' t => LaidBody U (a ++ ef n' :: b) t
  | _, _, .done l hl, a, b, hE, _ => by simp at hE
  | _, _, .elem l s k t h el b0 hl he hk hx hb, [], b, hE, hP => by
    injection hE with h1 h2
    subst h2; subst h1
    refine ((hP h s he).wrap l (k ++ t) ?_).cast (by simp)
    intro n' t' h'
    simpa using LaidBody.elem l t' k t h _ _ hl h' hk hx hb
  | _, _, .elem l s k t h el b0 hl he hk hx hb, x :: a, b, hE, hP => by
    injection hE with h1 h2
    subst h1
    refine ((named_bodyAt hb a b h2 hP).wrap (l ++ s ++ k) [] ?_).cast (by simp)
    intro n' t' h'
    simpa using LaidBody.elem l s k t' h _ _ hl he hk hx h'

/-- Replacing part of the head of a block. -/
theorem named_head {Sp : Str → Str → Prop} {n : Str} {i : Str → CowStr} {ls : Str → List BlockLabel} {b : Body} {h : Option Str} {s : Str}
    (hl : LaidElement U h (.block (i n) (ls n) b) s)
    (hP : ∀ s, LaidHeader U (i n) (ls n) s → Named Sp n s fun n' t => LaidHeader U (i n') (ls n') t) :
    Named Sp n s fun n' t => LaidElement U h (.block (i n') (ls n') b) t := by
  generalize hz : BodyElement.block (i n) (ls n) b = z at hl
  cases hl with
  | «attribute» => cases hz
  | emptyBlock _ _ s l m hh hl hm =>
    injection hz with h1 h2 h3
    subst h1; subst h2; subst h3
    refine ((hP s hh).wrap [] (l ++ '}' :: m) ?_).cast (by simp)
    intro n' t' h'
    simpa using LaidElement.emptyBlock _ _ t' l m h' hl hm
  | oneLineBlock _ _ s l a m k e hh hl ha hm =>
    injection hz with h1 h2 h3
    subst h1; subst h2; subst h3
    refine ((hP s hh).wrap [] (l ++ a ++ '}' :: m) ?_).cast (by simp)
    intro n' t' h'
    simpa using LaidElement.oneLineBlock _ _ t' l a m k e h' hl ha hm
  | block _ _ s l k t m b hh hl hk hb hm =>
    injection hz with h1 h2 h3
    subst h1; subst h2; subst h3
    refine ((hP s hh).wrap [] (l ++ k ++ t ++ '}' :: m) ?_).cast (by simp)
    intro n' t' h'
    simpa using LaidElement.block _ _ t' l k t m _ h' hl hk hb hm

theorem named_element (n : Str) : ∀ (p : NamePlace) {h : Option Str} {s : Str}, LaidElement U h (p.fill n) s →
    Named (p.Spells U) n s fun n' t => LaidElement U h (p.fill n') t
  | .attribute e, h, s, hl => by
    simp only [NamePlace.fill] at hl
    cases hl with
    | «attribute» _ _ _ _ ha => exact (named_attribute ha).mono fun n' t h => .attribute _ _ _ _ h
  | .key i p, h, s, hl => by
    simp only [NamePlace.fill] at hl
    cases hl with
    | «attribute» _ _ _ _ ha => exact (named_value p n ha).mono fun n' t h => .attribute _ _ _ _ h
  | .blockType ls b, h, s, hl =>
    named_head (i := fun n => .borrowed n) (ls := fun _ => ls) hl fun s hs => named_header_type hs
  | .identLabel i a c b, h, s, hl =>
    named_head (i := fun _ => i) (ls := fun n => a ++ .identifier (.borrowed n) :: c) hl fun s hs => named_header_ident hs
  | .stringLabel i a c b, h, s, hl =>
    named_head (i := fun _ => i) (ls := fun n => a ++ .stringLiteral n :: c) hl fun s hs => named_header_string hs
  | .inside i ls a p b, h, s, hl => by
    simp only [NamePlace.fill] at hl
    generalize hz : a ++ p.fill n :: b = z at hl
    cases hl with
    | emptyBlock => simp at hz
    | oneLineBlock _ _ s l c m k e hh hl hc hm =>
      obtain ⟨rfl, h4, rfl⟩ : a = [] ∧ p.fill n = .attribute k e ∧ b = [] := by
        cases a with
        | nil => injection hz with h3 h4; exact ⟨rfl, h3, h4⟩
        | cons => simp at hz
      have := named_element n p (h := none) (s := c) (by rw [h4]; exact .attribute _ _ _ _ hc)
      refine (this.wrap (s ++ l) ('}' :: m) ?_).cast (by simp)
      intro n' t h'
      cases p with
      | «attribute» e' =>
        cases h' with
        | «attribute» _ _ _ _ ha =>
          simpa [NamePlace.fill] using LaidElement.oneLineBlock i ls s l t m _ _ hh hl ha hm
      | key i' q =>
        cases h' with
        | «attribute» _ _ _ _ ha =>
          simpa [NamePlace.fill] using LaidElement.oneLineBlock i ls s l t m _ _ hh hl ha hm
      | _ => cases h4
    | block _ _ s l k t m b0 hh hl hk hb hm =>
      refine ((named_bodyAt (ef := p.fill) hb a b hz.symm fun h s hs => named_element n p hs).wrap (s ++ l ++ k) ('}' :: m) ?_).cast (by simp)
      intro n' t h'
      simpa [NamePlace.fill] using LaidElement.block i ls s l k t m _ hh hl hk h' hm

theorem named_document {s : Str} (p : DocName) (n : Str) (h : LaidDocument U (p.fill n) s) :
    Named (p.place.Spells U) n s fun n' t => LaidDocument U (p.fill n') t := by
  obtain ⟨a, p, b⟩ := p
  simp only [DocName.fill] at h ⊢
  generalize hE : a ++ p.fill n :: b = B at h
  cases h with
  | lines _ _ h =>
    exact (named_bodyAt (ef := p.fill) h a b hE.symm fun h s hs => named_element n p hs).mono fun n' t h => .lines _ _ h
  | last b0 s el t hb he =>
    rcases List.eq_nil_or_concat b with rfl | ⟨b', el', hb'⟩
    · have h1 : a = b0 ∧ p.fill n = el := by
        have := List.append_inj' hE rfl
        exact ⟨this.1, by injection this.2⟩
      obtain ⟨rfl, rfl⟩ := h1
      refine ((named_element n p he).wrap s [] ?_).cast (by simp)
      intro n' t' h'
      simpa using LaidDocument.last a s _ _ hb h'
    · rw [List.concat_eq_append] at hb'
      subst hb'
      have h1 : a ++ p.fill n :: b' = b0 ∧ el' = el := by
        have := List.append_inj' (s₁ := a ++ p.fill n :: b') (t₁ := [el']) (s₂ := b0) (t₂ := [el]) (by simpa using hE) rfl
        exact ⟨this.1, by injection this.2⟩
      obtain ⟨h1, rfl⟩ := h1
      refine ((named_bodyAt (ef := p.fill) hb a b' h1.symm fun h s hs => named_element n p hs).wrap [] t ?_).cast (by simp)
      intro n' t' h'
      simpa using LaidDocument.last _ _ el' t h' he

end Verif
