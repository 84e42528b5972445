import Verif.Proofs.BlocksEqTypes
import Verif.Props.Blocks
import Verif.Props.Equality
/-!
# C103: equality of indexed blocks

`==` on `Block`, `BlockBody` and `Blocks` is derived in Rust. `EqBody (NumEq O)` is what `==` on bodies says (C61).
-/
set_option autoImplicit false

namespace Verif.Props
open Verif Spec

variable (O : FloatOps)

/-- C103: `==` on single blocks: the same type, the same kinds and texts of labels in order, equal bodies. -/
theorem c103_block (a b : Block) : a.eq O b = true ↔ EqBlock (NumEq O) a b := by
  simp only [Block.eq, Bool.and_eq_true, beq_iff_eq, labels_eq_iff, c61_bodies]
  exact ⟨fun h => .mk _ _ h.1.1 h.1.2 h.2, fun h => by cases h; exact ⟨⟨‹_›, ‹_›⟩, ‹_›⟩⟩

theorem goodBody {b : BlockBody} {h : List (List BlockLabel × Body)} (hb : Built b h) : UniqueLabels b ∧ NoEmptyLabels b :=
  ⟨built_uniqueLabels hb, built_noEmpty hb⟩

/-- C103: `==` on the blocks of a type: under the same label paths there are as many bodies, equal one by one in order. -/
theorem c103_block_body {b b' : BlockBody} {h h' : List (List BlockLabel × Body)} (hb : Built b h) (hb' : Built b' h') :
    b.eq O b' = true ↔ SamePlaces (EqBody (NumEq O)) b b' :=
  eq_iff_places O _ _ (goodBody hb).1 (goodBody hb').1 (goodBody hb).2 (goodBody hb').2

/-- C103: `==` on blocks indexed by type: the same types, and the same contents for each. -/
theorem c103_blocks {m m' : Blocks} (hm : Made m) (hm' : Made m') :
    Blocks.eq O m m' = true ↔ SameContents (EqBody (NumEq O)) m m' := blocks_eq_iff_contents O (made_good hm) (made_good hm')

theorem bool_eq {a b : Bool} (h : a = true ↔ b = true) : a = b := by
  cases a <;> cases b <;> simp_all

/-- C103: hash order does not matter to `==`. -/
theorem c103_hash_order {m m2 m' : Blocks} (hm : Made m) (hs : SameTypes m m2) (hm' : Made m') :
    Blocks.eq O m m' = Blocks.eq O m2 m' ∧ Blocks.eq O m' m = Blocks.eq O m' m2 := by
  have hm2 : Made m2 := .reorder _ _ hm hs
  have key : ∀ {m m2 m' : Blocks}, Made m → Made m2 → Made m' → SameTypes m m2 →
      SameContents (EqBody (NumEq O)) m m' → SameContents (EqBody (NumEq O)) m2 m' :=
    fun a b c hs h => contents_same_left (made_good a) hs (made_good b) (made_good c) h
  have hs' : SameTypes m2 m := by
    have sym : ∀ {a b : Blocks}, SameTypes a b → SameTypes b a := by
      intro a b h
      induction h with
      | nil => exact .nil
      | cons t x y m m' h _ ih => exact .cons _ _ _ _ _ (same_symm h) ih
      | swap p q m m' _ ih => exact .swap _ _ _ _ ih
      | trans a b c _ _ i j => exact .trans _ _ _ j i
    exact sym hs
  constructor
  · refine bool_eq ?_
    rw [c103_blocks O hm hm', c103_blocks O hm2 hm']
    exact ⟨key hm hm2 hm' hs, key hm2 hm hm' hs'⟩
  · refine bool_eq ?_
    rw [c103_blocks O hm' hm, c103_blocks O hm' hm2]
    constructor
    · intro h
      have := contents_same_left (E := fun x y => EqBody (NumEq O) y x) (made_good hm) hs (made_good hm2) (made_good hm')
        (contents_flip h)
      exact contents_flip this
    · intro h
      have := contents_same_left (E := fun x y => EqBody (NumEq O) y x) (made_good hm2) hs' (made_good hm) (made_good hm')
        (contents_flip h)
      exact contents_flip this

/-- C103: the same for the blocks of a type. -/
theorem c103_hash_order_body {b c b' : BlockBody} {h h' : List (List BlockLabel × Body)} (hb : Built b h) (hs : SameBlocks b c)
    (hb' : Built b' h') : b.eq O b' = c.eq O b' ∧ b'.eq O b = b'.eq O c := by
  have hc : Built c h := .reorder _ _ _ hb hs
  constructor
  · refine bool_eq ?_
    rw [c103_block_body O hb hb', c103_block_body O hc hb']
    exact ⟨places_same_left hs, places_same_left (same_symm hs)⟩
  · refine bool_eq ?_
    rw [c103_block_body O hb' hb, c103_block_body O hb' hc]
    exact ⟨places_same_right hs, places_same_right (same_symm hs)⟩

theorem selfEqual_iff (bodies : List Body) : SelfEqual (NumEq O) bodies ↔ ∀ x ∈ bodies, EqBody (NumEq O) x x :=
  forall_congr' fun x => forall_congr' fun _ => (eqBody_refl (N := NumEq O) x).symm

/-- C103: indexed blocks equal themselves exactly if all numbers in them do (in whatever hash order). -/
theorem c103_refl {m m' : Blocks} (hm : Made m) (hs : SameTypes m m') :
    Blocks.eq O m m' = true ↔ SelfEqual (NumEq O) ((Blocks.flatIter m).map fun q => q.2.2) := by
  rw [← (c103_hash_order O hm hs hm).2, c103_blocks O hm hm, contents_refl_iff (made_good hm), selfEqual_iff]

/-- C103: the same for the blocks of a type. -/
theorem c103_refl_body {b b' : BlockBody} {h : List (List BlockLabel × Body)} (hb : Built b h) (hs : SameBlocks b b') :
    b.eq O b' = true ↔ SelfEqual (NumEq O) (b.flatIter.map Prod.snd) := by
  rw [← (c103_hash_order_body O hb hs hb).2, c103_block_body O hb hb, places_refl_iff (goodBody hb).1, selfEqual_iff]

/-- C103: `==` is symmetric (if comparing floats is). -/
theorem c103_symm (hO : ∀ x y, O.close x y = O.close y x) {m m' : Blocks} (hm : Made m) (hm' : Made m') :
    Blocks.eq O m m' = Blocks.eq O m' m := by
  have flip : ∀ x y, EqBody (NumEq O) y x → EqBody (NumEq O) x y := fun x y h => by
    rw [← c61_bodies] at h ⊢; rw [c61_symmetric O hO]; exact h
  refine bool_eq ?_
  rw [c103_blocks O hm hm', c103_blocks O hm' hm]
  exact ⟨fun h => contents_mono flip (contents_flip h), fun h => contents_mono flip (contents_flip h)⟩

/-- C103: blocks put in by appends are equal if for each type the same blocks were put in in the same order; blocks of
different types may have come in any order, and hash maps may be in any order. -/
theorem c103_same_history {m m' : Blocks} {h h' : List Block} (hm : BuiltBlocks m h) (hm' : BuiltBlocks m' h')
    (he : ∀ t, ofType t h = ofType t h') (hs : SelfEqual (NumEq O) (h.map Block.body)) : Blocks.eq O m m' = true := by
  have g := made_good (builtBlocks_made hm)
  have g' := made_good (builtBlocks_made hm')
  rw [c103_blocks O (builtBlocks_made hm) (builtBlocks_made hm')]
  rw [contents_get g g']
  intro t
  have hself : ∀ c, HashMap.get CowStr.str t m = some c → SamePlaces (EqBody (NumEq O)) c c := by
    intro c hc
    obtain ⟨k, hk, -⟩ := get_some hc
    rw [places_refl_iff (g.2 _ hk).1]
    intro x hx
    refine (selfEqual_iff O _).1 hs x ?_
    have hp := (builtBlocks_bodies hm).map Prod.snd
    simp only [List.map_map, Function.comp_def] at hp
    rw [← hp.mem_iff, blocks_flatIter_eq]
    obtain ⟨y, hy, rfl⟩ := List.mem_map.1 hx
    simp only [List.mem_map, List.mem_flatMap]
    exact ⟨_, ⟨_, hk, _, hy, rfl⟩, rfl⟩
  rcases (builtBlocks_get hm).2 t with ⟨h1, h2⟩ | ⟨c, h1, h2, h3⟩
  · rcases (builtBlocks_get hm').2 t with ⟨h4, -⟩ | ⟨d, h4, h5, h6⟩
    · rw [h1, h4]; trivial
    · rw [he] at h2; exact absurd h2 h6
  · rcases (builtBlocks_get hm').2 t with ⟨h4, h5⟩ | ⟨d, h4, h5, h6⟩
    · rw [he] at h3; exact absurd h5 h3
    · rw [h1, h4]
      rw [← he] at h5
      exact places_same_right (built_same h2 h5) (hself c h1)

/-- C103: equal blocks have the same blocks when one iterates over them, up to order: the same types, the same texts of
labels, equal bodies. In particular there are as many. -/
theorem c103_flat_iter {m m' : Blocks} (hm : Made m) (hm' : Made m') (h : Blocks.eq O m m' = true) :
    (∃ l, AllPairs (fun x y => x.1 = y.1 ∧ x.2.1 = y.2.1 ∧ EqBody (NumEq O) x.2.2 y.2.2) (Blocks.flatIter m) l ∧
      l.Perm (Blocks.flatIter m')) ∧ Blocks.lenBlocks m = Blocks.lenBlocks m' := by
  have := contents_flatIter (made_good hm) (made_good hm') ((c103_blocks O hm hm').1 h)
  refine ⟨this, ?_⟩
  rw [blocks_lenBlocks, blocks_lenBlocks]
  exact permRel_length this

/-- C103: in equal blocks of a type, looking up texts of labels finds the same places, and what is found is equal (as long
as no text is both that of a string and of an identifier among the labels). -/
theorem c103_get {b b' : BlockBody} {h h' : List (List BlockLabel × Body)} (hb : Built b h) (hb' : Built b' h')
    (hc : ConsistentLabels h) (he : b.eq O b' = true) (ts : List Str) :
    ((b.get ts).isSome ↔ (b'.get ts).isSome) ∧
      ∀ c c', b.get ts = some c → b'.get ts = some c' → c.eq O c' = true := by
  have hp := (c103_block_body O hb hb').1 he
  have ht := built_uniqueTexts hb hc
  obtain ⟨u, f⟩ := goodBody hb
  obtain ⟨u', f'⟩ := goodBody hb'
  have ht' := places_uniqueTexts u u' f f' hp ht
  have hr := places_get u u' ht ht' hp ts
  constructor
  · revert hr
    cases b.get ts <;> cases b'.get ts <;> simp [OptRel]
  · intro c c' h1 h2
    rw [h1, h2] at hr
    obtain ⟨q, -, hq⟩ := (get_at ht).1 h1
    obtain ⟨q', -, hq'⟩ := (get_at ht').1 h2
    exact (eq_iff_places O _ _ (at_unique u hq) (at_unique u' hq') (at_noEmpty f hq) (at_noEmpty f' hq')).2 hr
where
  at_noEmpty {b c : BlockBody} {q : List BlockLabel} (h : NoEmptyLabels b) (hq : At b q c) : NoEmptyLabels c := by
    induction hq with
    | here => exact h
    | step e m p l ls c hp _ _ ih => exact ih (h.child hp)

theorem blockRel_iff (a b : Block) : BlockRel (EqBody (NumEq O)) a b ↔ EqBlock (NumEq O) a b :=
  ⟨fun h => .mk _ _ h.type h.labels h.body, fun h => by cases h; exact ⟨‹_›, ‹_›, ‹_›⟩⟩

/-- C103: equal blocks appended to equal blocks give equal blocks. -/
theorem c103_append {m m' : Blocks} (hm : Made m) (hm' : Made m') (b b' : Block) (h : Blocks.eq O m m' = true)
    (hb : b.eq O b' = true) : Blocks.eq O (m.append b) (m'.append b') = true := by
  rw [c103_block] at hb
  rw [c103_blocks O (.append _ _ hm) (.append _ _ hm')]
  exact contents_append hm hm' ((blockRel_iff O b b').2 hb) ((c103_blocks O hm hm').1 h)

theorem blocksRel {bs bs' : List Block} (hb : AllPairs (fun b b' => b.eq O b' = true) bs bs') :
    AllPairs (BlockRel (EqBody (NumEq O))) bs bs' :=
  allPairs_mono (fun b _ b' _ h => (blockRel_iff O b b').2 ((c103_block O b b').1 h)) hb

/-- C103: the same for `extend`. -/
theorem c103_extend {m m' : Blocks} (hm : Made m) (hm' : Made m') (bs bs' : List Block) (h : Blocks.eq O m m' = true)
    (hb : AllPairs (fun b b' => b.eq O b' = true) bs bs') : Blocks.eq O (m.extend bs) (m'.extend bs') = true := by
  rw [c103_blocks O (made_extend bs hm) (made_extend bs' hm')]
  exact contents_extend (blocksRel O hb) hm hm' ((c103_blocks O hm hm').1 h)

/-- C103: `Blocks::new` of lists of blocks that are equal one by one gives equal blocks. -/
theorem c103_new (bs bs' : List Block) (hb : AllPairs (fun b b' => b.eq O b' = true) bs bs') :
    Blocks.eq O (Blocks.new bs) (Blocks.new bs') = true := by
  rw [c103_blocks O (.new _) (.new _)]
  exact contents_new (blocksRel O hb)

/-- C103: the blocks of equal bodies (documents, for instance) are equal when indexed. -/
theorem c103_documents (a b : Body) (h : BodyElement.eqList O a b = true) :
    Blocks.eq O (Blocks.new (blocksOf a)) (Blocks.new (blocksOf b)) = true := by
  refine c103_new O _ _ ?_
  rw [c61_bodies] at h
  have : ∀ {a b : Body}, EqBody (NumEq O) a b → AllPairs (fun b b' => Block.eq O b b' = true) (blocksOf a) (blocksOf b) := by
    intro a
    induction a with
    | nil => intro b h; cases h; exact .nil
    | cons x a ih =>
      intro b h
      cases h with
      | cons _ y _ b hx h =>
        cases hx with
        | «attribute» => exact ih (b := b) h
        | block t u ls ms x y ht hl hxy => exact .cons _ _ _ _ ((c103_block O _ _).2 (.mk _ _ ht hl hxy)) (ih (b := b) h)
  exact this h

/-! ## the theorems are not vacuous -/

/-- a block of the examples: type, label, and a number as the only attribute -/
abbrev nblk (t : String) (ls : List BlockLabel) (n : Number) : Block :=
  ⟨.borrowed t.toList, ls, [.attribute (.borrowed ['a']) (.number n)]⟩

/-- two orders of blocks of two types -/
abbrev eqFirst : List Block := [nblk "x" [sl "l", il "m"] toyOne, nblk "y" [] toyOne, nblk "x" [sl "l"] toyMinusOne, nblk "x" [sl "k"] toyOne]
/-- the same blocks of each type in the same order -/
abbrev eqSecond : List Block := [nblk "y" [] toyOne, nblk "x" [sl "l", il "m"] toyOne, nblk "x" [sl "l"] toyMinusOne, nblk "x" [sl "k"] toyOne]

theorem eqFirst_built : BuiltBlocks (Blocks.extend [] eqFirst) eqFirst := builtBlocks_extend (l := eqFirst) .empty
theorem eqSecond_built : BuiltBlocks (Blocks.extend [] eqSecond) eqSecond := builtBlocks_extend (l := eqSecond) .empty

-- two histories; the hash maps differ in order
example : Blocks.eq toyFloats (Blocks.extend [] eqFirst) (Blocks.extend [] eqSecond) = true :=
  c103_same_history toyFloats eqFirst_built eqSecond_built (fun t => by
      by_cases h : t = "x".toList
      · subst h; rfl
      · by_cases h2 : t = "y".toList
        · subst h2; rfl
        · have key : ∀ bs : List Block, (∀ b ∈ bs, b.type.str = ['x'] ∨ b.type.str = ['y']) → ofType t bs = [] := by
            intro bs hbs
            rw [ofType, List.filter_eq_nil_iff.2, List.map_nil]
            intro b hb he
            rcases hbs b hb with h3 | h3
            · exact h (by rw [← of_decide_eq_true he, h3]; rfl)
            · exact h2 (by rw [← of_decide_eq_true he, h3]; rfl)
          rw [key eqFirst (by decide +kernel), key eqSecond (by decide +kernel)])
    (by
      intro x hx n hn
      have : x ∈ [toyOne, toyMinusOne].map fun n => [BodyElement.attribute (.borrowed ['a']) (.number n)] := by
        simp only [eqFirst, nblk, List.map_cons, List.map_nil, List.mem_cons, List.not_mem_nil, or_false] at hx ⊢
        rcases hx with h | h | h | h
        · exact .inl h
        · exact .inl h
        · exact .inr h
        · exact .inl h
      simp only [List.map_cons, List.map_nil, List.mem_cons, List.not_mem_nil, or_false] at this
      rcases this with rfl | rfl
      · simp only [bodyNumbers, bodyLeaves, elementLeaves, exprLeaves, leafNumbers, List.append_nil, List.mem_singleton] at hn
        subst hn
        show toyOne.eq toyFloats toyOne = true
        decide +kernel
      · simp only [bodyNumbers, bodyLeaves, elementLeaves, exprLeaves, leafNumbers, List.append_nil, List.mem_singleton] at hn
        subst hn
        show toyMinusOne.eq toyFloats toyMinusOne = true
        decide +kernel)
-- and blocks that are not equal: another number, another kind of label, another type, another order, more of them
example : Blocks.eq toyFloats (Blocks.new eqFirst) (Blocks.new eqSecond) = false ∧
    Blocks.eq toyFloats (Blocks.new [nblk "x" [] toyOne]) (Blocks.new [nblk "x" [] toyPlusOne]) = true ∧
    Blocks.eq toyFloats (Blocks.new [nblk "x" [] toyOne]) (Blocks.new [nblk "x" [] toyMinusOne]) = false ∧
    Blocks.eq toyFloats (Blocks.new [nblk "x" [] toyOne]) (Blocks.new [nblk "y" [] toyOne]) = false ∧
    Blocks.eq toyFloats (Blocks.new [nblk "x" [sl "l"] toyOne]) (Blocks.new [nblk "x" [il "l"] toyOne]) = false ∧
    Blocks.eq toyFloats (Blocks.new [nblk "x" [] toyOne, nblk "x" [] toyMinusOne])
      (Blocks.new [nblk "x" [] toyMinusOne, nblk "x" [] toyOne]) = false ∧
    Blocks.eq toyFloats (Blocks.new [nblk "x" [sl "l"] toyOne, nblk "x" [sl "m"] toyMinusOne])
      (Blocks.new [nblk "x" [sl "m"] toyMinusOne, nblk "x" [sl "l"] toyOne]) = true ∧
    Blocks.eq toyFloats (Blocks.new [nblk "x" [] toyOne]) (Blocks.new [nblk "x" [] toyOne, nblk "x" [] toyOne]) = false := by
  decide +kernel

/-- `Blocks::new` of two lists that are equal one by one, in another hash order -/
theorem eqSwapped : SameTypes (Blocks.new [nblk "x" [sl "l"] toyPlusOne, nblk "y" [] toyOne])
    (Blocks.new [nblk "y" [] toyOne, nblk "x" [sl "l"] toyPlusOne]) := .swap _ _ _ _ .nil
theorem eqPairs : AllPairs (fun b b' => Block.eq toyFloats b b' = true) [nblk "x" [sl "l"] toyOne, nblk "y" [] toyOne]
    [nblk "x" [sl "l"] toyPlusOne, nblk "y" [] toyOne] := by
  refine .cons _ _ _ _ ?_ (.cons _ _ _ _ ?_ .nil) <;> decide +kernel

theorem eqNew : Blocks.eq toyFloats (Blocks.new [nblk "x" [sl "l"] toyOne, nblk "y" [] toyOne])
    (Blocks.new [nblk "y" [] toyOne, nblk "x" [sl "l"] toyPlusOne]) = true := by
  rw [← (c103_hash_order toyFloats (.new _) eqSwapped (.new _)).2]
  exact c103_new toyFloats _ _ eqPairs

example := c103_extend toyFloats (.new _) (.new _) _ _ eqNew eqPairs
example := c103_append toyFloats (.new _) (.new _) (nblk "y" [sl "l"] toyOne) (nblk "y" [sl "l"] toyPlusOne) eqNew (by decide +kernel)
example := (c103_flat_iter toyFloats (.new _) (.new _) eqNew).2
example := (c103_blocks toyFloats (.new _) (.new _)).1 eqNew
example := (c103_refl toyFloats (.new _) eqSwapped).2 (by
  intro x hx n hn
  have : x = [BodyElement.attribute (.borrowed ['a']) (.number toyPlusOne)] ∨ x = [BodyElement.attribute (.borrowed ['a']) (.number toyOne)] := by
    have e : (Blocks.flatIter (Blocks.new [nblk "x" [sl "l"] toyPlusOne, nblk "y" [] toyOne])).map (fun q => q.2.2) =
      [[BodyElement.attribute (.borrowed ['a']) (.number toyPlusOne)], [BodyElement.attribute (.borrowed ['a']) (.number toyOne)]] := rfl
    rw [e] at hx
    simpa using hx
  rcases this with rfl | rfl
  · simp only [bodyNumbers, bodyLeaves, elementLeaves, exprLeaves, leafNumbers, List.append_nil, List.mem_singleton] at hn
    subst hn
    show toyPlusOne.eq toyFloats toyPlusOne = true
    decide +kernel
  · simp only [bodyNumbers, bodyLeaves, elementLeaves, exprLeaves, leafNumbers, List.append_nil, List.mem_singleton] at hn
    subst hn
    show toyOne.eq toyFloats toyOne = true
    decide +kernel)
theorem strBeqComm (x y : Str) : (x == y) = (y == x) := by
  rw [Bool.eq_iff_iff, beq_iff_eq, beq_iff_eq]; exact eq_comm
example := c103_symm toyFloats (fun x y => strBeqComm x y) (.new eqFirst) (.new eqSecond)

/-- blocks of one type: two histories that differ in the order of labels -/
abbrev eqHist (n : Number) : List (List BlockLabel × Body) :=
  [([sl "l"], [.attribute (.borrowed ['a']) (.number n)]), ([il "m"], [.attribute (.borrowed ['a']) (.number toyOne)])]
theorem eqHist_built (n : Number) : Built (BlockBody.fromIter (eqHist n)) (eqHist n) := built_extend (h := []) (l := eqHist n) .default
theorem eqHist_eq : (BlockBody.fromIter (eqHist toyOne)).eq toyFloats (BlockBody.fromIter (eqHist toyPlusOne)) = true := by decide +kernel
theorem eqHist_swap : SameBlocks (BlockBody.fromIter (eqHist toyOne)) (BlockBody.fromIter (eqHist toyOne).reverse) :=
  .labels _ _ _ (.swap _ _ _ _ .nil)

example := (c103_block_body toyFloats (eqHist_built _) (eqHist_built _)).1 eqHist_eq
example : (BlockBody.fromIter (eqHist toyOne).reverse).eq toyFloats (BlockBody.fromIter (eqHist toyPlusOne)) = true :=
  (c103_hash_order_body toyFloats (eqHist_built _) eqHist_swap (eqHist_built toyPlusOne)).1 ▸ eqHist_eq
example := c103_get toyFloats (eqHist_built _) (eqHist_built _) (by
  intro p hp l hl p' hp' l' hl' h
  simp only [eqHist, List.mem_cons, List.not_mem_nil, or_false] at hp hp'
  rcases hp with rfl | rfl <;> rcases hp' with rfl | rfl <;>
    simp only [List.mem_singleton] at hl hl' <;> subst hl <;> subst hl' <;> first | rfl | exact absurd h (by decide)) eqHist_eq
  ["l".toList]
example := (c103_refl_body toyFloats (eqHist_built _) eqHist_swap).2 (by
  intro x hx n hn
  have : x = [BodyElement.attribute (.borrowed ['a']) (.number toyOne)] := by
    have e : (BlockBody.fromIter (eqHist toyOne)).flatIter.map Prod.snd =
      [[BodyElement.attribute (.borrowed ['a']) (.number toyOne)], [BodyElement.attribute (.borrowed ['a']) (.number toyOne)]] := rfl
    rw [e] at hx
    simpa using hx
  subst this
  simp only [bodyNumbers, bodyLeaves, elementLeaves, exprLeaves, leafNumbers, List.append_nil, List.mem_singleton] at hn
  subst hn
  show toyOne.eq toyFloats toyOne = true
  decide +kernel)
example := c103_documents toyFloats (toyBody true toyOne) (toyBody false toyPlusOne) (by decide +kernel)
example := (c103_block toyFloats (nblk "x" [sl "l"] toyOne) (nblk "x" [sl "l"] toyPlusOne)).1 (by decide +kernel)

end Verif.Props
