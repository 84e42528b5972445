import Verif.Proofs.SlicesDe
import Verif.Proofs.OldSlices
import Verif.Props.Laid
import Verif.Props.OldLaid
import Verif.Props.Reads
/-! # C84: the texts of a tree are parts of the input -/
set_option autoImplicit false

namespace Verif.Props
open Verif Spec

variable (U : CharClass)

/-- C84: the texts kept in the tree come, in the order of the tree, from parts of the input that do not overlap; the borrowed
ones are these parts. -/
theorem c84_texts_are_slices (s : Str) (b : Body) (h : parseStr U s = .ok b) : Slices (bodyTexts b) s :=
  slices_document ((c15_every_layout_is_read U s b).1 h)

/-- C84: a borrowed text is a part of the input. -/
theorem c84_borrowed_is_part (s : Str) (b : Body) (h : parseStr U s = .ok b) (t : CowStr) (ht : t ∈ bodyTexts b)
    (ho : t.owned = false) : t.str <:+: s := slices_mem (c84_texts_are_slices U s b h) t ht ho

/-- C84: all texts together are no longer than the input, in characters and in bytes, and the tree has no more elements,
labels, expressions and keys than the input has characters. -/
theorem c84_size (s : Str) (b : Body) (h : parseStr U s = .ok b) :
    textChars (bodyTexts b) ≤ s.length ∧ textBytes (bodyTexts b) ≤ (utf8 s).length ∧ bodyNodes b ≤ s.length :=
  ⟨(slices_size (c84_texts_are_slices U s b h)).1, (slices_size (c84_texts_are_slices U s b h)).2,
    nodes_document ((c15_every_layout_is_read U s b).1 h)⟩

/-- C84: every `&str` in a deserialized value is a part of the document. -/
theorem c84_deserialized_borrowed (P : F64Parse) (I : F64OfInt) (ord : HashOrder) (t : Ty) (ht : ProperTy t) (s : Str) (v : DVal)
    (h : deFromStr U P I ord t s = .ok v) (x : Str) (hx : HasText t v true x) : x <:+: s := by
  obtain ⟨b, hb, hr⟩ := c68_from_str_value P I ord U t ht s v h
  obtain ⟨c, hc, rfl, ho⟩ := reads_texts hr hx
  exact c84_borrowed_is_part U s b hb c hc (ho rfl)

/-- C84: every text in a deserialized value is a text of the parsed tree. -/
theorem c84_deserialized_texts (P : F64Parse) (I : F64OfInt) (ord : HashOrder) (t : Ty) (ht : ProperTy t) (s : Str) (v : DVal)
    (h : deFromStr U P I ord t s = .ok v) (o : Bool) (x : Str) (hx : HasText t v o x) :
    ∃ b, parseStr U s = .ok b ∧ ∃ c ∈ bodyTexts b, c.str = x := by
  obtain ⟨b, hb, hr⟩ := c68_from_str_value P I ord U t ht s v h
  obtain ⟨c, hc, e, -⟩ := reads_texts hr hx
  exact ⟨b, hb, c, hc, e⟩

/-- C84, legacy: the texts kept in the entries come, in their order, from parts of the input that do not overlap; the borrowed
ones are these parts. -/
theorem c84_legacy_texts_are_slices (P : F64Parse) (s : Str) (es : List (Key × Value)) (h : fromStr U P s none = .ok (.unmerged es)) :
    Slices (entriesTexts es) s := slices_oldDocument ((c71_every_layout_is_read U P s es).1 h)

/-- C84, legacy: all texts together are no longer than the input, in characters and in bytes. -/
theorem c84_legacy_size (P : F64Parse) (s : Str) (es : List (Key × Value)) (h : fromStr U P s none = .ok (.unmerged es)) :
    textChars (entriesTexts es) ≤ s.length ∧ textBytes (entriesTexts es) ≤ (utf8 s).length :=
  slices_size (c84_legacy_texts_are_slices U P s es h)

/-- What `Slices` means: the texts can be numbered by ascending, disjoint intervals of the input. -/
theorem c84_slices_positions (ts : List CowStr) (s : Str) (h : Slices ts s) (i j : Nat) (hij : i < j) (hj : j < ts.length)
    (hi' : ts[i].owned = false) (hj' : ts[j].owned = false) :
    ∃ a b c, s = a ++ ts[i].str ++ b ++ ts[j].str ++ c := by
  induction h generalizing i j with
  | nil => simp at hj
  | borrowed g t r ts h ih =>
    obtain ⟨j, rfl⟩ : ∃ k, j = k + 1 := ⟨j - 1, by omega⟩
    cases i with
    | zero =>
      simp only [List.getElem_cons_succ, List.length_cons] at hj hj' ⊢
      obtain ⟨p, q, e⟩ := slices_mem h _ (List.getElem_mem (by omega)) hj'
      exact ⟨g, p, q, by rw [← e]; simp [CowStr.borrowed]⟩
    | succ i =>
      obtain ⟨a, b, c, e⟩ := ih i j (by omega) (by simpa using hj) (by simpa using hi') (by simpa using hj')
      exact ⟨g ++ t ++ a, b, c, by rw [e]; simp⟩
  | owned g t r v ts h1 h2 h ih =>
    obtain ⟨j, rfl⟩ : ∃ k, j = k + 1 := ⟨j - 1, by omega⟩
    cases i with
    | zero => simp [CowStr.ownedS] at hi'
    | succ i =>
      obtain ⟨a, b, c, e⟩ := ih i j (by omega) (by simpa using hj) (by simpa using hi') (by simpa using hj')
      exact ⟨g ++ t ++ a, b, c, by rw [e]; simp⟩

/-- Non-vacuity of C84: borrowed and owned texts, in order. -/
example : (match parseStr asciiClass "a=\"\\t\"\nb \"l\" c {\nd=[1.5]\n}\n".toList with
    | .ok b => some (bodyTexts b, bodyNodes b)
    | _ => none) = some ([.borrowed ['a'], .ownedS ['\t'], .borrowed ['b'], .ownedS ['l'], .borrowed ['c'], .borrowed ['d'],
      .borrowed ['1', '.', '5']], 8) := by decide +kernel

/-- Non-vacuity of C84: a struct with a `&str` field. -/
example : Reads zeroFloats ⟨fun _ => ⟨0⟩, fun _ => ⟨0⟩, id⟩ (.struct [(['a'], .str)]) (.body [.attribute (.borrowed ['a']) (.string (.borrowed ['q']))])
    (.entries [(['a'], .string ['q'])]) ∧ HasText (.struct [(['a'], .str)]) (.entries [(['a'], .string ['q'])]) true ['q'] := by
  refine ⟨.body _ _ [(['a'], .expr (.string (.borrowed ['q'])))] _ ?_ (.struct _ _ _ (.present _ _ _ _ _ _ _ (by simp) (.str _) (.nil _)) ?_),
    .field _ _ 0 _ _ _ _ _ _ rfl rfl (.str _)⟩
  · refine ⟨by simp [attrs, Distinct], by simp [NameClash, blocks], by simp, ?_⟩
    intro k n
    constructor
    · intro h
      simp only [List.mem_singleton, Prod.mk.injEq] at h
      exact .inl ⟨.borrowed ['a'], _, List.mem_singleton.2 rfl, h.1.symm, h.2⟩
    · rintro (⟨k', e, h, rfl, rfl⟩ | ⟨run, ⟨pre, post, h, hne, -⟩, -⟩)
      · simp [attrs] at h
        simp [h, CowStr.borrowed]
      · simp [blocks] at h
        exact absurd h.2.1 hne
  · exact .declared _ _ _ _ (by simp) (.nil _)

/-- Non-vacuity of C84, legacy. -/
example : (match fromStr asciiClass zeroFloats "a = \"x\", \"b\" = 1\nc \"l\" { d = [\"\"]\n }\n".toList none with
    | .ok (.unmerged es) => some (entriesTexts es)
    | _ => none) =
      some [.borrowed ['a'], .ownedS ['x'], .ownedS ['b'], .borrowed ['c'], .ownedS ['l'], .borrowed ['d'], .ownedS []] := by
  decide +kernel

end Verif.Props
