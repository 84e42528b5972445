import Verif.Props.BlocksPlace
import Verif.Witness.Base
import Verif.Props.BlocksMut
import Verif.Props.Construct
/-! # Concrete cases: blocks and constructors -/
set_option autoImplicit false

namespace Verif.Witness
open Verif Spec Verif.Props

/-- blocks with two labels and with one -/
def hist : List (List BlockLabel × Body) :=
  [([sl "vm", sl "a"], bodyOf "1"), ([sl "vm", il "b"], bodyOf "2"), ([sl "db"], bodyOf "3")]

/-- what they are stored as -/
def stored : BlockBody :=
  .labels [] [(sl "vm", .labels [] [(sl "a", .body [bodyOf "1"]), (il "b", .body [bodyOf "2"])]), (sl "db", .body [bodyOf "3"])]

/-- the history of `stored` -/
theorem stored_built : Built stored hist := (c37_extend_body (l := hist) .default).2

/-- the labels are used consistently -/
theorem hist_ok : ConsistentLabels hist := by
  simp [hist, ConsistentLabels, BlockLabel.text, BlockLabel.norm, CowStr.borrowed]

/-- and with one more block -/
theorem hist_more : ConsistentLabels (hist ++ [([sl "vm", sl "c"], bodyOf "4")]) := by
  simp [hist, ConsistentLabels, BlockLabel.text, BlockLabel.norm, CowStr.borrowed]

/-- and with a block with a new first label -/
theorem hist_new : ConsistentLabels (hist ++ [([] ++ sl "x" :: [sl "y"], bodyOf "4")]) := by
  simp [hist, ConsistentLabels, BlockLabel.text, BlockLabel.norm, CowStr.borrowed]

/-- blocks of two types -/
def blockList : List Block := [blk "a" [sl "x"] "1", blk "b" [] "2", blk "a" [sl "x", sl "y"] "3"]

/-- blocks, some of the same type, one after the other -/
def adjacentList : List Block := [blk "a" [] "1", blk "a" [sl "x"] "2", blk "b" [] "3"]

/-- a set of blocks with this history -/
theorem blockList_built : BuiltBlocks (Blocks.extend [] blockList) blockList := builtBlocks_extend (l := blockList) .empty

example := c37_block_body_history stored_built
example := c37_history blockList_built
example := c37_extend (l := [blk "a" [] "4"]) blockList_built
example := c38_block_body stored_built [sl "vm", sl "c"] (bodyOf "4") hist_more
example := c38_lost_place stored_built [] [sl "y"] (sl "x") [] _ (bodyOf "4") hist_new (.here _) (by decide)
example := c38_not_lost stored_built [sl "q"] (.inl (by decide))
example := c38_kept stored_built [sl "vm", sl "c"] (bodyOf "4") hist_more
example := c38_blocks blockList_built (blk "a" [sl "x"] "4")
  (by simp [blockList, ofType, ConsistentLabels, BlockLabel.text, BlockLabel.norm, CowStr.borrowed])

example := c38_blocks_exact blockList_built (blk "a" [sl "x"] "4")
  (by simp [blockList, ofType, ConsistentLabels, BlockLabel.text, BlockLabel.norm, CowStr.borrowed])
  (fun c hc => by
    rw [blocks_get_nil] at hc
    rcases (builtBlocks_get blockList_built).2 (blk "a" [sl "x"] "4").type.str with ⟨h1, -⟩ | ⟨c', h1, h2, -⟩
    · rw [h1] at hc; cases hc
    · rw [h1] at hc; injection hc with hc; subst hc; exact c38_not_lost h2 _ (.inl (by decide)))
example := c38_blocks_lost_place blockList_built (blk "a" [sl "z", sl "y"] "4")
  (by simp [blockList, ofType, ConsistentLabels, BlockLabel.text, BlockLabel.norm, CowStr.borrowed]) _ rfl [] [sl "y"] (sl "z") _ _ rfl (.here _) (by decide)

/-- the last blocks of type `a` -/
theorem lastRun : LastRun "a".toList blockList [blk "a" [sl "x", sl "y"] "3"] :=
  ⟨[blk "a" [sl "x"] "1", blk "b" [] "2"], [], rfl, by simp, by simp [CowStr.borrowed], by simp, by intro b h; cases h; decide⟩

/-- blocks of the same type are next to each other -/
theorem adjacentList_ok : TypesAdjacent adjacentList := by
  intro pre a mid c post h he b hb
  have hlen := congrArg List.length h
  simp [adjacentList] at hlen
  match pre, mid with
  | [], [] => cases hb
  | [], [m1] =>
    simp [adjacentList] at h
    obtain ⟨rfl, rfl, rfl, -⟩ := h
    simp [CowStr.borrowed] at he
  | [], m1 :: m2 :: m => simp at hlen; omega
  | [p], [] => cases hb
  | [p], m1 :: m => simp at hlen; omega
  | p :: q :: pre, _ => simp at hlen; omega

example := c39_last_run_unique lastRun lastRun
example := c39_adjacent adjacentList_ok
example := c40_label_lens stored_built (by decide)
example := c40_blocks blockList_built "a".toList [1, 2]
example := c41_label_lens_uniform stored_built hist_ok
example := c41_uniform (b := .labels [] [(sl "a", .body [bodyOf "1"])]) (h := [([sl "a"], bodyOf "1")])
  ((c37_extend_body (l := [([sl "a"], bodyOf "1")]) .default).2) (by simp [ConsistentLabels]) 1 rfl
example := c41_agrees stored_built hist_ok
example := c42_get stored_built hist_ok ["vm".toList, "a".toList]
example := c42_append stored_built
  (b' := .labels [] [(sl "db", .body [bodyOf "3"]), (sl "vm", .labels [] [(sl "a", .body [bodyOf "1"]), (il "b", .body [bodyOf "2"])])])
  (.labels _ _ _ (.swap _ _ _ _ .nil)) [sl "db"] (bodyOf "4")
example := c42_blocks_get blockList_built "a".toList
  (by simp [blockList, ofType, ConsistentLabels, BlockLabel.text, BlockLabel.norm, CowStr.borrowed]) ["x".toList]
example := c43_no_empty_labels stored_built
example := c43_has_further_labels stored_built ["vm".toList] (c := .labels [] [(sl "a", .body [bodyOf "1"]), (il "b", .body [bodyOf "2"])]) rfl
example := c43_blocks (.inl blockList_built) "b".toList (b := .body [bodyOf "2"]) rfl
example := c43_blocks (.inr (rfl : _ = Blocks.new blockList)) "b".toList (b := .body [bodyOf "2"]) rfl

/-! ## Changing blocks in place -/

/-- a place in `toyBlocks` -/
theorem toy_place : ∃ x put, toyBlocks.getMut [['b'], ['c']] = some (x, put) := by
  have : (toyBlocks.getMut [['b'], ['c']]).isSome = true := rfl
  obtain ⟨⟨x, put⟩, h⟩ := Option.isSome_iff_exists.1 this
  exact ⟨x, put, h⟩

example := c64_get_mut_write toyBlocks _ (.body []) [['b'], ['c']] _ toy_place.choose_spec.choose_spec
example := c64_get_mut_flat_iter toyBlocks _ [['b'], ['c']] _ toy_place.choose_spec.choose_spec

/-- a place in a set of blocks -/
theorem blocks_place : ∃ x put, Blocks.getMut [(.borrowed "t".toList, toyBlocks), (.borrowed "u".toList, .body [])] "t".toList [['b'], ['c']] = some (x, put) := by
  have : (Blocks.getMut [(.borrowed "t".toList, toyBlocks), (.borrowed "u".toList, .body [])] "t".toList [['b'], ['c']]).isSome = true := rfl
  obtain ⟨⟨x, put⟩, h⟩ := Option.isSome_iff_exists.1 this
  exact ⟨x, put, h⟩

example := c64_blocks_get_mut_write _ _ (.body []) "t".toList [['b'], ['c']] _ blocks_place.choose_spec.choose_spec

/-! ## Constructors -/

/-- `3u8` -/
theorem three : Expr.ofInt ⟨false, 8⟩ true 3 = some (.number ⟨.ownedS ['3'], true, some (.ownedS ['3']), none, none⟩) := by decide +kernel

/-- an object with a tuple -/
theorem made : Constructed asciiClass toyHalves (fun x => x ≠ none) (.newObject ObjKey.ofStr [(['a'], .newTuple
      [.number ⟨.ownedS ['3'], true, some (.ownedS ['3']), none, none⟩, .ofFloat toyHalves (some (true, 2, true))])]) := by
  refine .object _ (fun p hp => ?_) (fun p hp => ?_)
  · rw [List.mem_singleton] at hp
    subst hp
    exact idA
  · rw [List.mem_singleton] at hp
    subst hp
    refine .tuple _ fun e he => ?_
    simp only [List.mem_cons, List.not_mem_nil, or_false] at he
    rcases he with rfl | rfl
    · exact .int ⟨false, 8⟩ true 3 _ (by decide) (by decide) (fun h => by cases h) three
    · exact .float _ (Option.some_ne_none _)

example := c65_constructed_is_parsed asciiClass toyHalves _ toyHalves_shows _ made
example := c65_constructed_body asciiClass toyHalves _ toyHalves_shows
  [.ofBlock (.new (.borrowed ['b']) [.stringLiteral ['l']] [.ofAttribute (.borrowed ['a'], .ofStr ['s'])])] (by
    intro el hel
    rw [List.mem_singleton] at hel
    subst hel
    refine .block _ _ _ idB (by simp) ?_
    intro el hel
    rw [List.mem_singleton] at hel
    subst hel
    exact .attribute _ _ idA (.str _))
example := c65_values_unmerged [.integer 1, .object [.unmerged []]] [(.newIdentifier ['a'], .boolean true)]
  [[(.newIdentifier ['a'], .boolean true)], []] [['l']] (by decide) (by decide) (by decide)
example := c65_variant_name ⟨false, 8⟩ true 3 _ true ['s'] toyHalves (some (true, 2, true)) [] three
example := c63_parses_back asciiClass toyHalves _ toyHalves_shows (some (true, 2, true)) (Option.some_ne_none _)
example := c63_words toyHalves _ toyHalves_shows none (fun h => h rfl) ⟨Str, fun s => some s, fun s => s, fun a b => a == b⟩

end Verif.Witness
