import Verif.Spec.Leaves
import Verif.Proofs.Concat
/-! # Leaves of accepted texts -/
set_option autoImplicit false

namespace Verif
open PRes Spec

variable {U : CharClass}

/-- All leaves belong to the text. -/
def AllLeaves (U : CharClass) (s : Str) (ls : List Leaf) : Prop := ∀ l ∈ ls, LeafOf U s l

theorem leafOf_mono {s t : Str} (h : s <:+: t) {l : Leaf} (hl : LeafOf U s l) : LeafOf U t l := by
  cases hl with
  | number t n h1 h2 => exact .number t n h1 (h2.trans h)
  | borrowed t h1 => exact .borrowed t (h1.trans h)
  | owned t => exact .owned t
  | identKey i h1 h2 => exact .identKey i h1 (h2.trans h)
  | exprKey t h1 => exact .exprKey t (h1.trans h)
  | name i h1 h2 => exact .name i h1 (h2.trans h)
  | identLabel i h1 h2 => exact .identLabel i h1 (h2.trans h)
  | stringLabel t => exact .stringLabel t

theorem AllLeaves.mono {s t : Str} {ls : List Leaf} (hl : AllLeaves U s ls) (h : s <:+ t) : AllLeaves U t ls :=
  fun l hm => leafOf_mono h.isInfix (hl l hm)

theorem AllLeaves.append {s : Str} {a b : List Leaf} (ha : AllLeaves U s a) (hb : AllLeaves U s b) :
    AllLeaves U s (a ++ b) := fun l hl => by
  rcases List.mem_append.1 hl with h | h
  · exact ha l h
  · exact hb l h

theorem AllLeaves.cons {s : Str} {a : Leaf} {b : List Leaf} (ha : LeafOf U s a) (hb : AllLeaves U s b) :
    AllLeaves U s (a :: b) := fun l hl => by
  rcases List.mem_cons.1 hl with rfl | h
  · exact ha
  · exact hb l h

theorem AllLeaves.nil {s : Str} : AllLeaves U s [] := fun _ h => by cases h

theorem heredoc_leaf {s r : Str} {v : CowStr} (h : Heredoc U s v r) : LeafOf U s (.string v) := by
  cases h with
  | empty => exact .borrowed [] (List.nil_infix)
  | content ind m e s content b _ v h1 h2 he hn hf hv =>
    generalize (if ind then b.length else 0) = n at hv
    cases hv with
    | verbatim =>
      obtain ⟨⟨t, rfl, -⟩, -⟩ := hf
      exact .borrowed content ⟨'<' :: '<' :: (if ind then ['-'] else []) ++ m ++ e, t, by simp⟩
    | indented => exact .owned _

theorem sfx_skip {I : Str → Prop} {s r : Str} (h : Skip I s r) : r <:+ s := h.suffix

theorem suffix_cons_of {c : Char} {s t : Str} (h : (c :: s) <:+ t) : s <:+ t := (List.suffix_cons c s).trans h

theorem ident_suffix {s i r : Str} (h : Ident U s i r) : r <:+ s := by
  obtain ⟨rfl, -, -⟩ := h; exact List.suffix_append _ _
theorem ident_infix {s i r : Str} (h : Ident U s i r) : i <:+: s := by
  obtain ⟨rfl, -, -⟩ := h; exact (List.prefix_append _ _).isInfix

theorem objectKey_suffix {s r : Str} {k : ObjKey} (h : IsObjectKey U s k r) : r <:+ s := by
  cases h with
  | ident h => exact ident_suffix ‹_›
  | expr t e _ h1 h2 => exact List.suffix_append _ _

theorem isExpr_leaves {s r : Str} {e : Expr} (h : IsExpr U s e r) : AllLeaves U s (exprLeaves e) := by
  refine IsExpr.rec (motive_1 := fun s e _ _ => AllLeaves U s (exprLeaves e))
    (motive_2 := fun s es _ _ => AllLeaves U s (tupleLeaves es))
    (motive_3 := fun s es _ _ => AllLeaves U s (tupleLeaves es))
    (motive_4 := fun s k _ _ => LeafOf U s (.key k))
    (motive_5 := fun s es _ _ => AllLeaves U s (objectLeaves es))
    ?_ ?_ ?_ ?_ ?_ ?_ ?_ ?_ ?_ ?_ ?_ ?_ ?_ ?_ ?_ ?_ h
  · intro _; exact .nil
  · intro _; exact .nil
  · intro _; exact .nil
  · intro s n r h
    obtain ⟨t, rfl, h, -⟩ := h
    exact .cons (.number t n h (List.prefix_append _ _).isInfix) .nil
  · intro s v r h
    cases h with
    | quoted => exact .cons (.owned _) .nil
    | heredoc _ _ h => exact .cons (heredoc_leaf ‹_›) .nil
  · intro s es r _ ih; exact ih.mono (List.suffix_cons _ _)
  · intro s t es r h1 _ ih; exact ih.mono (suffix_cons_of h1.suffix)
  · intro s t u v e r h1 h2 _ _ ih; exact ih.mono (h2.suffix.trans (suffix_cons_of h1.suffix))
  · intro _ _ _; exact .nil
  · intro s t u e es r h1 h2 _ ih1 ih2
    exact .append (ih1.mono h1.suffix) (ih2.mono ((isExpr_consumes h2).suffix.trans h1.suffix))
  · intro _ _ _; exact .nil
  · intro s t u v e es r h1 h2 h3 _ ih1 ih2
    have := h2.suffix.trans (suffix_cons_of h1.suffix)
    exact .append (ih1.mono this) (ih2.mono ((isExpr_consumes h3).suffix.trans this))
  · intro s i r h; exact .identKey i h.2.1 (ident_infix h)
  · intro t e r _ _ _; exact .exprKey t (List.prefix_append _ _).isInfix
  · intro _ _ _; exact .nil
  · intro s t u v w x y z k e es r h1 h2 h3 h4 h5 h6 h7 _ ih1 ih2 ih3
    have a1 := h1.suffix
    have a2 := (objectKey_suffix h2).trans a1
    have a3 := h4.suffix.trans ((suffix_cons_of h3.suffix).trans a2)
    have a4 := (objectSep_suffix h7).trans (h6.suffix.trans ((isExpr_consumes h5).suffix.trans a3))
    exact .cons (leafOf_mono a1.isInfix ih1) (.append (ih2.mono a3) (ih3.mono a4))

theorem isAttribute_leaves {s r : Str} {k : CowStr} {e : Expr} (h : IsAttribute U s k e r) :
    AllLeaves U s (.name k :: exprLeaves e) := by
  obtain ⟨i, t, u, v, w, rfl, h1, h2, h3, h4⟩ : ∃ i t u v w, k = .borrowed i ∧ Ident U s i t ∧ SkipInline t ('=' :: u) ∧
      SkipInline u v ∧ IsExpr U v e w := by
    cases h; exact ⟨_, _, _, _, _, rfl, ‹_›, ‹_›, ‹_›, ‹_›⟩
  exact .cons (.name i h1.2.1 (ident_infix h1)) ((isExpr_leaves h4).mono
    (h3.suffix.trans ((suffix_cons_of h2.suffix).trans (ident_suffix h1))))

theorem isLabels_leaves {s r : Str} {ls : List BlockLabel} (h : IsLabels U s ls r) :
    AllLeaves U s (ls.map .label) ∧ r <:+ s := by
  induction h with
  | «open» s r h => exact ⟨.nil, suffix_cons_of h.suffix⟩
  | label s t u l ls r h1 h2 _ ih =>
    have a : u <:+ t := by
      cases h2 with
      | ident _ h => exact ident_suffix ‹_›
      | string _ h => exact (quoted_consumes ‹_›).suffix
    refine ⟨.cons ?_ (ih.1.mono (a.trans h1.suffix)), ih.2.trans (a.trans h1.suffix)⟩
    cases h2 with
    | ident i h => exact .identLabel i ‹Ident U _ _ _›.2.1 ((ident_infix ‹_›).trans h1.suffix.isInfix)
    | string v h => exact .stringLabel v

theorem isBody_leaves {s r : Str} {b : Body} (h : IsBody U s b r) : AllLeaves U s (bodyLeaves b) := by
  refine IsBody.rec (motive_1 := fun s b _ _ => AllLeaves U s (bodyLeaves b))
    (motive_2 := fun s el r _ => AllLeaves U s (elementLeaves el) ∧ r <:+ s)
    ?_ ?_ ?_ ?_ ?_ ?_ h
  · intro _ _ _; exact .nil
  · intro s t u v el els r h1 h2 h3 _ ih1 ih2
    have a := ih1.2.trans h1.suffix
    refine .append (ih1.1.mono h1.suffix) (ih2.mono ?_)
    cases h3 with
    | newline h => exact (newlines_consumes ‹_›).suffix.trans a
    | eof => exact a
  · intro s k e r h
    refine ⟨isAttribute_leaves h, ?_⟩
    obtain ⟨i, t, u, v, w, h1, h2, h3, h4, h5⟩ : ∃ i t u v w, Ident U s i t ∧ SkipInline t ('=' :: u) ∧
        SkipInline u v ∧ IsExpr U v e w ∧ SkipInline w r := by
      cases h; exact ⟨_, _, _, _, _, ‹_›, ‹_›, ‹_›, ‹_›, ‹_›⟩
    exact h5.suffix.trans ((isExpr_consumes h4).suffix.trans
      (h3.suffix.trans ((suffix_cons_of h2.suffix).trans (ident_suffix h1))))
  · intro s i t u v r ls h1 h2 h3 h4
    obtain ⟨b1, b2⟩ := isLabels_leaves h2
    refine ⟨.cons (.name i h1.2.1 (ident_infix h1)) (.append (b1.mono (ident_suffix h1)) .nil), ?_⟩
    exact h4.suffix.trans ((suffix_cons_of h3.suffix).trans (b2.trans (ident_suffix h1)))
  · intro s i t u u' v r ls k e h1 h2 h3 h4 h5
    obtain ⟨b1, b2⟩ := isLabels_leaves h2
    have a := h3.suffix.trans (b2.trans (ident_suffix h1))
    refine ⟨.cons (.name i h1.2.1 (ident_infix h1)) (.append (b1.mono (ident_suffix h1)) ?_), ?_⟩
    · have := (isAttribute_leaves h4).mono a
      simpa [bodyLeaves, elementLeaves] using this
    · obtain ⟨i, t, u, v', w, h1, h2, h3, h4, h6⟩ : ∃ i t u v' w, Ident U u' i t ∧ SkipInline t ('=' :: u) ∧
          SkipInline u v' ∧ IsExpr U v' e w ∧ SkipInline w ('}' :: v) := by
        cases h4; exact ⟨_, _, _, _, _, ‹_›, ‹_›, ‹_›, ‹_›, ‹_›⟩
      exact h5.suffix.trans ((suffix_cons_of h6.suffix).trans ((isExpr_consumes h4).suffix.trans
        (h3.suffix.trans ((suffix_cons_of h2.suffix).trans ((ident_suffix h1).trans a)))))
  · intro s i t u u' v w r ls b h1 h2 h3 h4 h5 h6 ih
    obtain ⟨b1, b2⟩ := isLabels_leaves h2
    have a := (newlines_consumes h4).suffix.trans (h3.suffix.trans (b2.trans (ident_suffix h1)))
    refine ⟨.cons (.name i h1.2.1 (ident_infix h1)) (.append (b1.mono (ident_suffix h1)) (ih.mono a)), ?_⟩
    exact h6.suffix.trans ((suffix_cons_of (isBody_suffix h5)).trans a)

end Verif
