import Verif.Proofs.OldLaid
import Verif.Props.OldValues
/-! # C71: layout may be chosen freely in legacy documents -/
set_option autoImplicit false

namespace Verif.Props
open Verif Spec PRes

variable (U : CharClass) (P : F64Parse)

/-- C71: without merging, `from_str` returns given entries for exactly the texts that write them with any layout. -/
theorem c71_every_layout_is_read (s : Str) (es : List (Key × Value)) :
    fromStr U P s none = .ok (.unmerged es) ↔ LaidOldDocument U P es s := by
  rw [c21_from_str_accepts_exactly_the_grammar]
  constructor
  · rintro ⟨es', h, hd⟩
    injection h with h
    subst h
    exact oldDocument_laid hd
  · intro h; exact ⟨es, rfl, laidOldDocument_document h⟩

/-- C71: texts that write the same entries with different layout give the same result, whatever is asked for on merging. -/
theorem c71_layout_never_matters (s s' : Str) (es : List (Key × Value)) (h : LaidOldDocument U P es s)
    (h' : LaidOldDocument U P es s') (merge : Option MergeBehaviour) : fromStr U P s merge = fromStr U P s' merge := by
  have key : ∀ s, LaidOldDocument U P es s → fromStr U P s merge = finishFromStr merge [] (.unmerged es) := by
    intro s h
    have hb : oldBody U P s = .ok [] (.unmerged es) := by
      have h1 := laidOldDocument_document h
      exact (oldBody_iff (U := U) (P := P)).2 ⟨rfl, es, rfl, h1⟩
    unfold fromStr
    rw [hb]
  rw [key s h, key s' h']

/-- C71: a single value: `[`, layout, elements … the text of a value is read as that value with whatever follows that does
not continue it. -/
theorem c71_value_layout (v : Value) (t r : Str) (h : LaidValue U P none v t) (hr : ∀ c u, r = c :: u → ¬ NumChar c) :
    singleValue U P (t ++ r) = .ok r v := by
  rw [singleValue_iff]
  exact laidOld_is.1 h r (.none _) (by rintro ⟨c, u, e, hc⟩; exact hr c u e hc)

/-- The same entries laid out in two ways. -/
def oldLaid₁ : Str := "a=[1,{\"b\"=2,}]\nc \"y\"{d=null\n}".toList
def oldLaid₂ : Str :=
  "# first\n\n  a /* = */ = [ // one\n 1\n , /* two */ { # object\n  \"b\"\t= 2 // comma\n\r\n } , ] /* end */ \n, c\t/**/\"y\" // open\n {\n /* d */ d = null\n ,}  # last\n".toList

/-- Non-vacuity of C71: both layouts are layouts of the same entries. -/
example : ∃ es, es.length = 2 ∧ LaidOldDocument asciiClass zeroFloats es oldLaid₁ ∧ LaidOldDocument asciiClass zeroFloats es oldLaid₂ := by
  have h : ∀ s es, fromStr asciiClass zeroFloats s none = .ok (.unmerged es) → LaidOldDocument asciiClass zeroFloats es s :=
    fun s es => (c71_every_layout_is_read asciiClass zeroFloats s es).1
  exact ⟨[(.identifier (.borrowed ['a']), .list [.integer 1, .object [.unmerged [(.string (.ownedS ['b']), .integer 2)]]]),
    (.identifier (.borrowed ['c']), .block (.unmerged [([['y']], .unmerged [(.identifier (.borrowed ['d']), .null)])]))],
    rfl, h _ _ (by decide +kernel), h _ _ (by decide +kernel)⟩

end Verif.Props
