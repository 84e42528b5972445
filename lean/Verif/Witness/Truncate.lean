import Verif.Witness.Base
import Verif.Props.Truncate
/-! # Cases for C92 -/
set_option autoImplicit false

namespace Verif.Witness
open Verif Spec Verif.Props

def numTok (s : Str) : Number := ⟨.borrowed s, true, some (.borrowed s), none, none⟩

/-- `n = 123`, cut in the number, and `s {}` after it. -/
theorem cut_full : parseStr asciiClass ("n = 12".toList ++ "3\ns {}\n".toList) =
    .ok [.attribute (.borrowed ['n']) (.number (numTok ['1', '2', '3'])), .block (.borrowed ['s']) [] []] := by decide +kernel
theorem cut_part : parseStr asciiClass "n = 12".toList = .ok [.attribute (.borrowed ['n']) (.number (numTok ['1', '2']))] := by
  decide +kernel

example := c92_cut_off asciiClass _ _ _ _ cut_part cut_full
/-- the document ends in a block: fewer elements are read -/
example : [BodyElement.attribute (.borrowed ['n']) (.number (numTok ['1', '2']))].length < 2 := by
  have := c92_complete_iff asciiClass _ _ _ _ cut_part cut_full (by
    intro f k n h
    have := congrArg List.getLast? h
    simp at this)
  rcases this with h | h
  · exact absurd (congrArg List.length h) (by decide)
  · exact h
example := c92_all_but_last asciiClass "a {}\nn = 12".toList "3\ns {}\n".toList [.block (.borrowed ['a']) [] []] _ _
  (by decide +kernel : parseStr asciiClass _ = .ok ([.block (.borrowed ['a']) [] []] ++
    [.attribute (.borrowed ['n']) (.number (numTok ['1', '2']))]))
  (by decide +kernel : parseStr asciiClass _ = .ok [.block (.borrowed ['a']) [] [],
    .attribute (.borrowed ['n']) (.number (numTok ['1', '2', '3'])), .block (.borrowed ['s']) [] []])

/-- legacy: an integer cut, then an integer that became a float -/
def cutP : F64Parse := fun s => if s = ['1', '.', '5'] then some ⟨0x3FF8000000000000⟩ else none
theorem old_full : fromStr asciiClass cutP ("n = 1".toList ++ ".5\ns = [1]\n".toList) none =
    .ok (.unmerged [(.identifier (.borrowed ['n']), .float ⟨0x3FF8000000000000⟩), (.identifier (.borrowed ['s']), .list [.integer 1])]) := by
  decide +kernel
theorem old_part : fromStr asciiClass cutP "n = 1".toList none = .ok (.unmerged [(.identifier (.borrowed ['n']), .integer 1)]) := by
  decide +kernel
example := c92_legacy_cut_off asciiClass cutP _ _ _ _ old_part old_full
example := c92_legacy_between_tokens asciiClass cutP "n = 1".toList "\ns = [1]\n".toList
  [(.identifier (.borrowed ['n']), .integer 1)]
  [(.identifier (.borrowed ['n']), .integer 1), (.identifier (.borrowed ['s']), .list [.integer 1])]
  old_part (by decide +kernel) (.inl (by rintro ⟨c, t, h, hc⟩; injection h with h; subst h; revert hc; unfold NumberGoesOn; decide))
example := c92_legacy_complete_iff asciiClass cutP _ _ _ _ old_part old_full (by
  intro f k
  refine ⟨fun n h => ?_, fun x h => ?_⟩ <;>
  · have := congrArg List.getLast? h
    simp at this)
example := c92_legacy_all_but_last asciiClass cutP "a {}\nn = 1".toList ".5\n".toList
  [(.identifier (.borrowed ['a']), .object [.unmerged []])] _ _
  (by decide +kernel : fromStr asciiClass cutP _ none = .ok (.unmerged ([(.identifier (.borrowed ['a']), .object [.unmerged []])] ++
    [(.identifier (.borrowed ['n']), .integer 1)])))
  (by decide +kernel : fromStr asciiClass cutP _ none = .ok (.unmerged [(.identifier (.borrowed ['a']), .object [.unmerged []]),
    (.identifier (.borrowed ['n']), .float ⟨0x3FF8000000000000⟩)]))

/-- bytes and readers -/
example := c92_bytes_cut_off asciiClass [97, 61, 49] [50, 10] _ _
  (by decide +kernel : parseSlice asciiClass _ = .ok [.attribute (.borrowed ['a']) (.number (numTok ['1']))])
  (by decide +kernel : parseSlice asciiClass _ = .ok [.attribute (.borrowed ['a']) (.number (numTok ['1', '2']))])
def numTokOwned (s : Str) : Number := ⟨.ownedS s, true, some (.ownedS s), none, none⟩
example := c92_reader_cut_off asciiClass [.data [97, 61], .interrupted, .data [49]] [.data [97], .data [61, 49, 50], .data [10]]
  [97, 61, 49] [50, 10]
  (delivers_iff.2 (by decide)) (delivers_iff.2 (by decide)) _ _
  (by decide +kernel : parseReader asciiClass _ = .ok [.attribute (.ownedS ['a']) (.number (numTokOwned ['1']))])
  (by decide +kernel : parseReader asciiClass _ = .ok [.attribute (.ownedS ['a']) (.number (numTokOwned ['1', '2']))])

end Verif.Witness
