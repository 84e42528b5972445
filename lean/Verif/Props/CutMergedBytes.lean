import Verif.Props.CutMerged
/-! # C108 for bytes and readers: merged legacy configurations whose bytes were cut off -/
set_option autoImplicit false

namespace Verif.Props
open Verif Spec

variable (U : CharClass) (P : F64Parse)

/-- C108: the bytes of a document may have been cut anywhere (also within a character: then nothing can be read). -/
theorem c108_bytes_cut_off (x y : List Nat) (m' m : List (Key × Value)) (h' : fromSlice U P x (some .error) = .ok (.merged m'))
    (h : fromSlice U P (x ++ y) (some .error) = .ok (.merged m)) :
    ∃ p r, x = utf8 p ∧ y = utf8 r ∧ MergedCutOff P p r m' m := by
  have valid : ∀ {b : List Nat} {w : MapValues}, fromSlice U P b (some .error) = .ok w →
      ∃ s, b = utf8 s ∧ fromStr U P s (some .error) = .ok w := by
    intro b w hb
    unfold fromSlice at hb
    cases hf : fromUtf8 b with
    | none => rw [hf] at hb; cases hb
    | some s => rw [hf] at hb; exact ⟨s, fromUtf8_iff.1 hf, hb⟩
  obtain ⟨p, rfl, h1⟩ := valid h'
  obtain ⟨s, e, h2⟩ := valid h
  obtain ⟨r, rfl, rfl⟩ := utf8_cut e
  exact ⟨p, r, rfl, rfl, c108_cut_off U P p r m' m h1 h2⟩

/-- C108: what is left of the bytes can be read with merging if it can be read at all. -/
theorem c108_bytes_still_merge (x y : List Nat) (m : MapValues) (h : fromSlice U P (x ++ y) (some .error) = .ok m)
    (es' : List (Key × Value)) (h' : fromSlice U P x none = .ok (.unmerged es')) :
    ∃ m', fromSlice U P x (some .error) = .ok m' := by
  unfold fromSlice at h h' ⊢
  cases hf : fromUtf8 x with
  | none => rw [hf] at h'; cases h'
  | some p =>
    rw [hf] at h'
    cases hg : fromUtf8 (x ++ y) with
    | none => rw [hg] at h; cases h
    | some s =>
      rw [hg] at h
      have e := fromUtf8_iff.1 hg
      rw [fromUtf8_iff.1 hf] at e
      obtain ⟨r, rfl, -⟩ := utf8_cut e
      exact c108_still_merges U P p r m h es' h'

/-- C108: and for readers, where the stream ends too early, in whatever chunks the bytes come. -/
theorem c108_reader_cut_off (ev' ev : List ReadEvent) (x y : List Nat) (hx : Delivers ev' (some x))
    (hy : Delivers ev (some (x ++ y))) (w' w : MapValues) (h' : fromReader U P ev' (some .error) = .ok w')
    (h : fromReader U P ev (some .error) = .ok w) :
    ∃ p r m' m, x = utf8 p ∧ y = utf8 r ∧ w' = ownMap (.merged m') ∧ w = ownMap (.merged m) ∧ MergedCutOff P p r m' m := by
  obtain ⟨p, c', d1, h1, rfl⟩ := (c18_from_reader U P ev' _ w').1 h'
  obtain ⟨s, c, d2, h2, rfl⟩ := (c18_from_reader U P ev _ w).1 h
  rw [delivers_iff] at hx hy d1 d2
  rw [hx] at d1; rw [hy] at d2
  injection d1 with d1; injection d2 with d2
  subst d1
  obtain ⟨r, rfl, rfl⟩ := utf8_cut d2
  obtain ⟨_, _, g1⟩ := fromStr_merging U P h1
  obtain ⟨_, _, g2⟩ := fromStr_merging U P h2
  obtain ⟨m', rfl⟩ := mergeMap_merged g1
  obtain ⟨m, rfl⟩ := mergeMap_merged g2
  exact ⟨p, r, m', m, rfl, rfl, rfl, rfl, c108_cut_off U P p r m' m h1 h2⟩

/-! ## Cases that meet the hypotheses -/

abbrev cutBytesLeft : List Nat := utf8 "r \"a\" {\nn = 1\n}\nl = [1, 2]\n".toList
abbrev cutBytesRest : List Nat := utf8 "r \"b\" {\n}\n".toList

theorem cutBytes_whole : cutBytesLeft ++ cutBytesRest = utf8 ("r \"a\" {\nn = 1\n}\nl = [1, 2]\n".toList ++ "r \"b\" {\n}\n".toList) := by
  decide +kernel

example := c108_bytes_cut_off asciiClass zeroFloats cutBytesLeft cutBytesRest _ _
  ((c18_from_slice_of_text asciiClass zeroFloats _ _).trans cut_blocks_left_merged)
  (by rw [cutBytes_whole]; exact (c18_from_slice_of_text asciiClass zeroFloats _ _).trans cut_blocks_merged)

example := c108_bytes_still_merge asciiClass zeroFloats cutBytesLeft cutBytesRest _
  (by rw [cutBytes_whole]; exact (c18_from_slice_of_text asciiClass zeroFloats _ _).trans cut_blocks_merged) _
  ((c18_from_slice_of_text asciiClass zeroFloats _ _).trans cut_blocks_left)

example := c108_reader_cut_off asciiClass zeroFloats [.data cutBytesLeft] [.data cutBytesLeft, .data cutBytesRest] cutBytesLeft cutBytesRest
  (delivers_iff.2 (by decide +kernel)) (delivers_iff.2 (by decide +kernel)) _ _
  ((c18_from_reader asciiClass zeroFloats _ _ _).2 ⟨_, _, delivers_iff.2 (by decide +kernel), cut_blocks_left_merged, rfl⟩)
  ((c18_from_reader asciiClass zeroFloats _ _ _).2 ⟨_, _, delivers_iff.2 (by rw [← cutBytes_whole]; decide +kernel), cut_blocks_merged, rfl⟩)

/-- and bytes cut within a character: what is left is not text -/
example : fromSlice asciiClass zeroFloats [97, 61, 34, 0xC3] (some .error) = .error .utf8 := by decide +kernel

end Verif.Props
