import Verif.Proofs.OldEscapeFail
/-! # Positions are suffixes -/
set_option autoImplicit false

namespace Verif
open PRes Spec

section
variable {U : CharClass} {P : F64Parse}

theorem exprAt_suffix {s u : Str} (h : ExprAt U s u) : u <:+ s := by
  refine ExprAt.rec (motive_1 := fun s u _ => u <:+ s) (motive_2 := fun s u _ => u <:+ s) (motive_3 := fun s u _ => u <:+ s)
    ?_ ?_ ?_ ?_ ?_ ?_ ?_ ?_ ?_ h
  · intro s; exact List.suffix_refl _
  · intro s u _ ih; exact ih.trans (List.suffix_cons _ _)
  · intro s t u h1 _ ih; exact (ih.trans (List.suffix_cons _ _)).trans h1.suffix
  · intro s t v u h1 h2 _ ih; exact ((ih.trans h2.suffix).trans (List.suffix_cons _ _)).trans h1.suffix
  · intro s t u h1 _ ih; exact ih.trans h1.suffix
  · intro s t v w u e h1 h2 h3 _ ih
    exact (((ih.trans (List.suffix_cons _ _)).trans h3.suffix).trans (isExpr_consumes h2).suffix).trans h1.suffix
  · intro s t u h1 _ _ ih; exact ih.trans h1.suffix
  · intro s t v w x u k h1 h2 h3 h4 _ ih
    exact ((((ih.trans h4.suffix).trans (List.suffix_cons _ _)).trans h3.suffix).trans (isObjectKey_consumes h2).suffix).trans
      h1.suffix
  · intro s t v w x y z a u k e h1 h2 h3 h4 h5 h6 h7 _ ih
    exact (((((((ih.trans (objectSep_suffix h7)).trans h6.suffix).trans (isExpr_consumes h5).suffix).trans h4.suffix).trans
      (List.suffix_cons _ _)).trans h3.suffix).trans (isObjectKey_consumes h2).suffix).trans h1.suffix

theorem labelAt_suffix {s u : Str} (h : LabelAt U s u) : u <:+ s := by
  induction h with
  | here s u h => exact h.suffix
  | next s t v u l h1 h2 _ ih => exact (ih.trans (isLabel_consumes h2).suffix).trans h1.suffix

theorem attributeAt_suffix {s u : Str} (h : AttributeAt U s u) : u <:+ s := by
  cases h with
  | mk i t v w =>
    rename_i h4 h1 h2 h3
    exact ((((exprAt_suffix ‹ExprAt U w u›).trans (Skip.suffix ‹SkipInline v w›)).trans (List.suffix_cons _ _)).trans
      (Skip.suffix ‹SkipInline t ('=' :: v)›)).trans (ident_consumes ‹Ident U s i t›).suffix

theorem bodyAt_suffix {k : Kind} {s u : Str} (h : BodyAt U k s u) : u <:+ s := by
  induction h with
  | «attribute» s t u h1 h2 => exact (attributeAt_suffix h2).trans h1.suffix
  | label s t i v u h1 h2 h3 => exact ((labelAt_suffix h3).trans (ident_consumes h2).suffix).trans h1.suffix
  | oneLine s t i v w x u ls h1 h2 h3 h4 h5 =>
    exact ((((attributeAt_suffix h5).trans h4.suffix).trans (isLabels_consumes h3).suffix).trans
      (ident_consumes h2).suffix).trans h1.suffix
  | block k s t i v w x y u ls h1 h2 h3 h4 h5 _ ih =>
    exact ((((ih.trans (newlines_consumes h5).suffix).trans h4.suffix).trans (isLabels_consumes h3).suffix).trans
      (ident_consumes h2).suffix).trans h1.suffix
  | next k s t v w u el h1 h2 h3 _ ih =>
    exact ((ih.trans (elementEnd_suffix h3)).trans (isElement_consumes h2).suffix).trans h1.suffix

theorem entriesAt_suffix {k : Kind} {s u : Str} (h : EntriesAt U P k s u) : u <:+ s := by
  refine EntriesAt.rec (motive_1 := fun _ s u _ => u <:+ s) (motive_2 := fun _ s u _ => u <:+ s)
    (motive_3 := fun _ s u _ => u <:+ s) (motive_4 := fun _ s u _ => u <:+ s) ?_ ?_ ?_ ?_ ?_ ?_ ?_ ?_ ?_ ?_ ?_ ?_ h
  · intro s; exact List.suffix_refl _
  · intro k s u _ ih; exact ih.trans (List.suffix_cons _ _)
  · intro k s t u h1 _ ih; exact (ih.trans (List.suffix_cons _ _)).trans h1.suffix
  · intro k s t u h1 _ ih; exact ih.trans h1.suffix
  · intro k s t v w u x h1 h2 h3 _ ih
    exact (((ih.trans (List.suffix_cons _ _)).trans h3.suffix).trans (isValue_consumes h2).suffix).trans h1.suffix
  · intro k s t u h1 _ ih; exact ih.trans h1.suffix
  · intro k s t v w u key x h1 h2 h3 _ ih
    exact ((ih.trans (entryEnd_suffix h3)).trans (isEntry_consumes h2).suffix).trans h1.suffix
  · intro k s t v w u key h1 h2 h3 _ ih
    exact (((ih.trans h3.suffix).trans (List.suffix_cons _ _)).trans h2.suffix).trans (isKey_consumes h1).suffix
  · intro k s i t v u h1 h2 _ ih
    exact ((ih.trans (List.suffix_cons _ _)).trans h2.suffix).trans (ident_consumes h1).suffix
  · intro k s i t v w u ls h1 h2 _ h3 _ ih
    exact (((ih.trans (List.suffix_cons _ _)).trans h3.suffix).trans (stringLabels_suffix h2)).trans (ident_consumes h1).suffix
  · intro s; exact List.suffix_refl _
  · intro s i t v u ls h1 h2 h3
    exact (h3.suffix.trans (stringLabels_suffix h2)).trans (ident_consumes h1).suffix

theorem escapeError_suffix {plain : Char → Prop} {u t s : Str} (h : EscapeError plain u t) (hs : u <:+ s) :
    ∃ pre, s = pre ++ '\\' :: t := by
  obtain ⟨-, src, v, rfl, -⟩ := h
  obtain ⟨x, rfl⟩ := hs
  exact ⟨x ++ '"' :: src, by simp⟩

theorem escapeErrorAt_suffix {k : Kind} {u t s : Str} (h : EscapeErrorAt k u t) (hs : u <:+ s) :
    ∃ pre, s = pre ++ '\\' :: t := by
  cases k <;> exact escapeError_suffix h hs

theorem escapeErrorAt_not_escape {k : Kind} {u t : Str} (h : EscapeErrorAt k u t) : ¬ ∃ e c r, t = e ++ r ∧ Escape e c r := by
  cases k <;> (obtain ⟨-, src, v, -, -, h⟩ := h; exact h)

end
end Verif
