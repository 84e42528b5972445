import Verif.Proofs.Laid
/-! # A document cut off -/
set_option autoImplicit false

namespace Verif
open PRes Spec

section
variable {U : CharClass}

/-- A body of complete lines, with anything that is a body after it: the elements come first. -/
theorem laidBody_rest {b : Body} {s : Str} (hl : LaidBody U b s) :
    ∀ r c q, BodyEnd q → IsBody U (s ++ r) c q → ∃ c', c = b ++ c' ∧ IsBody U r c' q := by
  refine LaidBody.rec (motive_1 := fun _ _ _ _ => True)
    (motive_2 := fun b s _ => ∀ r c q, BodyEnd q → IsBody U (s ++ r) c q → ∃ c', c = b ++ c' ∧ IsBody U r c' q)
    ?_ ?_ ?_ ?_ ?_ ?_ hl
  · intros; trivial
  · intros; trivial
  · intros; trivial
  · intros; trivial
  · intro l hl r c q _ hb; exact ⟨c, rfl, (isBody_layout hl).1 hb⟩
  · intro l s n t h el b hl he hn hx _ _ ih r c q hq hb
    have e : l ++ s ++ n ++ t ++ r = l ++ (s ++ (n ++ (t ++ r))) := by simp
    rw [e] at hb
    have hb := (isBody_layout hl).1 hb
    cases hn with
    | mk i m hi hm =>
      have hn : LineEnds (i ++ m) := .mk _ _ hi hm
      obtain ⟨N', u, hN', hu, hs⟩ := inline_newline (q := []) .nil hi (m ++ (t ++ r))
      have hs' : SkipInline (i ++ m ++ (t ++ r)) u := by simpa using hs
      have hel := laidElement_isElement he (i ++ m ++ (t ++ r)) u hs' (hx.append _) (lineEnds_num hn _)
      obtain ⟨c0, u0, hu0, hc0⟩ := isElement_start hel
      have h0 : SkipLayout (s ++ (i ++ m ++ (t ++ r))) (s ++ (i ++ m ++ (t ++ r))) := by
        rw [hu0]; exact .refl (not_starts_layout hc0)
      obtain ⟨c1, rfl, hb1⟩ := (isBody_cons_newline h0 hel hN' hu hq).1 hb
      have hb2 := (isBody_layout (hm.mono fun _ => newlineItem_seq)).1 hb1
      obtain ⟨c', rfl, hb3⟩ := ih r c1 q hq hb2
      exact ⟨c', rfl, hb3⟩

/-- Of the numbers a text begins with there is a longest. -/
theorem numberTok_longest {t : Str} {n : Number} (h : IsNumber t n) (r : Str) :
    ∃ p r' m, r = p ++ r' ∧ IsNumber (t ++ p) m ∧ NumberTok (t ++ p ++ r') m r' := by
  induction hk : r.length using Nat.strongRecOn generalizing t n r with
  | ind k ih =>
    by_cases hx : ∃ p, p <+: r ∧ p ≠ [] ∧ ∃ m, IsNumber (t ++ p) m
    · obtain ⟨p, ⟨r1, rfl⟩, hp, m, hm⟩ := hx
      have hlt : r1.length < k := by
        subst hk; cases p with
        | nil => exact absurd rfl hp
        | cons => simp; omega
      obtain ⟨p2, r2, m2, rfl, h2, h3⟩ := ih _ hlt hm r1 rfl
      exact ⟨p ++ p2, r2, m2, by simp, by simpa using h2, by simpa using h3⟩
    · refine ⟨[], r, n, rfl, by simpa using h, t, by simp, h, ?_⟩
      intro p hp hne m hm
      exact hx ⟨p, hp, hne, m, hm⟩

theorem laidAttribute_isAttribute_ends {i l m t n : Str} {h : Option Str} {e : Expr} (hi : IsIdent U i) (hl : AnyInline l)
    (hm : AnyInline m) (ht : LaidExpr U h e t) (hnn : AnyInline n)
    {r x : Str} (hx : SkipInline r x) (hnext : Next h (n ++ r)) (hr : NumberEnds t (n ++ r)) :
    IsAttribute U (i ++ (l ++ '=' :: (m ++ (t ++ (n ++ r))))) (.borrowed i) e x := by
  obtain ⟨w, h1, h2⟩ := inline_then_expr hm (laidExpr_isExpr_ends ht (n ++ r) hnext hr)
  exact .mk _ _ _ _ w _ _ _ (ident_inline hi hl (by rw [head_cons]; exact not_identChar (by decide) (by decide)))
    (skip_append hl (not_inline_of (by decide) (by decide) (by decide))) h1 h2 (hx.prepend hnn)

/-- The text of a block, whatever follows. -/
theorem laidBlock_isElement {h : Option Str} {i : CowStr} {ls : List BlockLabel} {b : Body} {s : Str}
    (hl : LaidElement U h (.block i ls b) s) (r x : Str) (hx : SkipInline r x) : IsElement U (s ++ r) (.block i ls b) x := by
  cases hl with
  | emptyBlock _ _ s l m hh hl hm =>
    obtain ⟨j, t, rfl, h1, h2⟩ := laidHeader_spec hh (l ++ '}' :: (m ++ r))
    have e : s ++ l ++ '}' :: m ++ r = s ++ (l ++ '}' :: (m ++ r)) := by simp
    rw [e]
    exact .emptyBlock _ _ _ _ _ _ _ h1 h2 (skip_append hl (not_inline_of (by decide) (by decide) (by decide)))
      (hx.prepend hm)
  | oneLineBlock _ _ s l a m k e hh hl ha hm =>
    obtain ⟨j, t, rfl, h1, h2⟩ := laidHeader_spec hh (l ++ (a ++ '}' :: (m ++ r)))
    have e : s ++ l ++ a ++ '}' :: m ++ r = s ++ (l ++ (a ++ '}' :: (m ++ r))) := by simp
    rw [e]
    refine .oneLineBlock _ _ _ _ (a ++ '}' :: (m ++ r)) _ _ _ _ _ h1 h2 (skip_append hl ?_)
      (laidAttribute_isAttribute ha (.refl (not_inline_of (by decide) (by decide) (by decide))) (.none _)
        (by rw [head_cons]; simp [NumChar, IsDig])) (hx.prepend hm)
    cases ha with
    | mk =>
      simp only [List.append_assoc]; exact not_starts_inline (ident_not_layout ‹_› _)
  | block _ _ s l n t m _ hh hl hn hb hm =>
    obtain ⟨j, t', rfl, h1, h2⟩ := laidHeader_spec hh (l ++ (n ++ (t ++ '}' :: (m ++ r))))
    have e : s ++ l ++ n ++ t ++ '}' :: m ++ r = s ++ (l ++ (n ++ (t ++ '}' :: (m ++ r)))) := by simp
    rw [e]
    obtain ⟨y, k1, k2⟩ := inline_lineEnds hl hn (t ++ '}' :: (m ++ r))
    refine .block _ _ _ _ _ _ _ _ _ _ h1 h2 k1 k2 ?_ (hx.prepend hm)
    have := laidBody_isBody hb ('}' :: (m ++ r)) [] ('}' :: (m ++ r)) (.done _ _ (.refl (not_starts_layout (by decide))))
    simpa using this

theorem isBody_head {s u : Str} {el : BodyElement} {c : Body} (h : IsElement U s el u) (hb : IsBody U s c []) :
    ∃ c', c = el :: c' := by
  obtain ⟨c0, u0, rfl, hc0⟩ := isElement_start h
  obtain ⟨b, _, rfl, -, -⟩ := (isBody_cons (.refl (not_starts_layout hc0)) h (.inl rfl)).1 hb
  exact ⟨b, rfl⟩

/-- The last element of a text that is cut off there: it is the element of the whole text, or an attribute whose number
goes on. -/
theorem laidElement_cut {el : BodyElement} {t r : Str} {c : Body} (he : LaidElement U none el t)
    (hb : IsBody U (t ++ r) c []) :
    (∃ c', c = el :: c') ∨
    ∃ (k : CowStr) (n n' : Number) (a q : Str) (c' : Body), el = .attribute k (.number n') ∧ c = .attribute k (.number n) :: c' ∧
      IsNumber a n' ∧ IsNumber (a ++ q) n ∧ q ≠ [] ∧ q <+: r ∧ a <:+ t := by
  obtain ⟨x, hx⟩ := skipInline_total r
  cases el with
  | block i ls b => exact .inl (isBody_head (laidBlock_isElement he r x hx) hb)
  | «attribute» k e =>
    cases he with
    | «attribute» _ _ _ _ ha =>
      cases ha with
      | mk i l m t n _ _ hi hl hm ht hnn h0 =>
        have e : i ++ l ++ '=' :: m ++ t ++ n ++ r = i ++ (l ++ '=' :: (m ++ (t ++ (n ++ r)))) := by simp
        rw [e] at hb
        by_cases hne : NumberEnds t (n ++ r)
        · exact .inl (isBody_head (.attribute _ _ _ _ (laidAttribute_isAttribute_ends hi hl hm ht hnn hx (.none _) hne)) hb)
        · have hn : n = [] := by
            cases hnn with
            | nil => rfl
            | cons j n' hj _ =>
              exact absurd (numberEnds_of (by
                rw [List.append_assoc]
                exact not_head (layoutItem_head (inlineItem_layout hj)) fun _ => layoutStart_not_num)) hne
          subst hn
          rw [List.nil_append] at hb hne
          have ⟨n', hn'⟩ : ∃ n', IsNumber t n' := by
            apply Classical.byContradiction
            intro hx; exact hne fun n hn => absurd ⟨n, hn⟩ hx
          have h1 := laidExpr_isExpr ht [] (.none _) Head.not_nil
          have h2 : IsExpr U (t ++ []) (.number n') [] := .number _ _ _ (laidNumberTok hn' Head.not_nil)
          obtain ⟨rfl, -⟩ := isExpr_functional h1 h2
          obtain ⟨q, r', n, rfl, hn, htok⟩ := numberTok_longest hn' r
          obtain ⟨x', hx'⟩ := skipInline_total r'
          have e2 : t ++ (q ++ r') = t ++ q ++ ([] ++ r') := by simp
          rw [e2] at hb
          obtain ⟨c', rfl⟩ := isBody_head (.attribute _ _ _ _ (laidAttribute_isAttribute_ends hi hl hm (.number _ _ hn) .nil hx'
            (.none _) fun n2 hn2 => by
              have a := number_iff.2 (laidNumberTok (r := []) hn Head.not_nil)
              rw [number_iff.2 (laidNumberTok (r := []) hn2 Head.not_nil)] at a
              injection a with _ a; subst a; exact htok)) hb
          refine .inr ⟨_, _, _, t, q, c', rfl, rfl, hn', hn, ?_, ⟨r', rfl⟩, ?_⟩
          · rintro rfl
            apply hne
            intro n2 hn2
            obtain ⟨t', e3, h3, h4⟩ := htok
            obtain rfl : t = t' := by simpa using e3
            exact ⟨t, by simp, hn2, h4⟩
          · exact ⟨i ++ l ++ '=' :: m, by simp⟩

end
end Verif
