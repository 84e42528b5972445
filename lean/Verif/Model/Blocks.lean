import Verif.Model.Owned
import Verif.Model.Container
/-!
# Blocks indexed by type and labels (lib/src/parser/block.rs:186-706)

Hash maps are lists of entries in iteration order (`Model/Container.lean`). A new entry is put at the end here; Rust's
order is unspecified, and `Spec/Blocks.lean` states what holds for every order.
-/
set_option autoImplicit false

namespace Verif

/-- block.rs:60 derived `Eq` of labels (used by hash maps): the variant and the text -/
def BlockLabel.norm : BlockLabel → Bool × Str
  | .stringLiteral s => (true, s)
  | .identifier s => (false, s.str)

/-- block.rs:25-30 `Block` -/
structure Block where
  type : CowStr
  labels : List BlockLabel
  body : Body

/-- block.rs:392-404 `BlockBody` -/
inductive BlockBody where
  | body (bodies : List Body)
  | labels (empty : List Body) (labels : List (BlockLabel × BlockBody))

/-- std `HashMap::entry` with `Vacant → insert new`, `Occupied → update in place` -/
def HashMap.upsert {K V N : Type} [DecidableEq N] (norm : K → N) (k : K) (new : V) (upd : V → V) :
    HashMap K V → HashMap K V
  | [] => [(k, new)]
  | (k', v) :: m => if norm k' = norm k then (k', upd v) :: m else (k', v) :: HashMap.upsert norm k new upd m

/-- block.rs:702-706 `Default` -/
def BlockBody.default : BlockBody := .body []

/-- block.rs:411-442 `append`, 656-677 `body_to_labels`: removing the first label (`drain(0..1)`) is matching on
`label :: ls`. -/
def BlockBody.append : BlockBody → List BlockLabel → Body → BlockBody
  | .body bodies, [], x => .body (bodies ++ [x])
  | .body bodies, label :: ls, x => .labels bodies [(label, BlockBody.append .default ls x)]
  | .labels empty m, [], x => .labels (empty ++ [x]) m
  | .labels empty m, label :: ls, x =>
    .labels empty (HashMap.upsert BlockLabel.norm label (.body [x]) (fun b => BlockBody.append b ls x) m)

/-- block.rs:691-700 `extend` -/
def BlockBody.extend (b : BlockBody) : List (List BlockLabel × Body) → BlockBody
  | [] => b
  | (ls, x) :: l => BlockBody.extend (b.append ls x) l

/-- block.rs:680-689 `from_iter` -/
def BlockBody.fromIter (l : List (List BlockLabel × Body)) : BlockBody := BlockBody.default.extend l

/-- block.rs:444-461 `get` (and 463-480 `get_mut`, which finds the same place) -/
def BlockBody.get : BlockBody → List Str → Option BlockBody
  | b, [] => some b
  | .body _, _ :: _ => none
  | .labels _ m, l :: ls => match HashMap.get BlockLabel.text l m with
    | none => none
    | some b => b.get ls

mutual
/-- block.rs:482-508 `flat_iter` (509-535 `flat_iter_mut` visits the same places; 537-560 `flat_into_iter` yields the
same items, `as_cow` being the label's text) -/
def BlockBody.flatIter : BlockBody → List (List Str × Body)
  | .body bodies => bodies.map fun x => ([], x)
  | .labels empty m => empty.map (fun x => ([], x)) ++ BlockBody.flatIterLabels m
/-- block.rs:497-503, the loop over the labels -/
def BlockBody.flatIterLabels : List (BlockLabel × BlockBody) → List (List Str × Body)
  | [] => []
  | (label, b) :: m => (b.flatIter.map fun p => (label.text :: p.1, p.2)) ++ BlockBody.flatIterLabels m
end

mutual
/-- block.rs:562-575 `len_blocks` -/
def BlockBody.lenBlocks : BlockBody → Nat
  | .body bodies => bodies.length
  | .labels empty m => empty.length + BlockBody.lenBlocksFold 0 m
/-- block.rs:570-572, the `fold` -/
def BlockBody.lenBlocksFold (acc : Nat) : List (BlockLabel × BlockBody) → Nat
  | [] => acc
  | (_, b) :: m => BlockBody.lenBlocksFold (b.lenBlocks + acc) m
end

/-- block.rs:578-585 `has_further_labels` -/
def BlockBody.hasFurtherLabels : BlockBody → Bool
  | .labels _ m => !m.isEmpty
  | .body _ => false

/-- block.rs:588-593 `get_empty` -/
def BlockBody.getEmpty : BlockBody → List Body
  | .body bodies => bodies
  | .labels empty _ => empty

/-- block.rs:596-601 `get_labels` -/
def BlockBody.getLabels : BlockBody → Option (List (BlockLabel × BlockBody))
  | .body _ => none
  | .labels _ m => some m

/-- std `BTreeSet::insert` on a strictly increasing list -/
def btreeInsert (x : Nat) : List Nat → List Nat
  | [] => [x]
  | y :: l => if x < y then x :: y :: l else if x = y then y :: l else y :: btreeInsert x l

/-- std `collect::<BTreeSet<usize>>()` -/
def btreeCollect (l : List Nat) : List Nat := l.foldl (fun s x => btreeInsert x s) []

mutual
/-- block.rs:604-623 `label_lens` -/
def BlockBody.labelLens : BlockBody → List Nat
  | .body _ => btreeCollect [0]
  | .labels empty m =>
    if empty.isEmpty then btreeCollect (BlockBody.labelLensMap m)
    else btreeCollect (BlockBody.labelLensMap m ++ [0])
/-- block.rs:611-614, the iterator over the labels -/
def BlockBody.labelLensMap : List (BlockLabel × BlockBody) → List Nat
  | [] => []
  | (_, b) :: m => (b.labelLens.map fun n => n + 1) ++ BlockBody.labelLensMap m
end

mutual
/-- block.rs:626-650 `label_lens_uniform` -/
def BlockBody.labelLensUniform : BlockBody → Option Nat
  | .body _ => some 0
  | .labels empty m =>
    if !m.isEmpty && !empty.isEmpty then none
    else match m with
      | [] => some 0
      | (_, b) :: m => match b.labelLensUniform with
        | none => none
        | some n => if BlockBody.allUniform (some n) m then some n else none
/-- block.rs:642-646, the loop comparing the others with the first -/
def BlockBody.allUniform (initial : Option Nat) : List (BlockLabel × BlockBody) → Bool
  | [] => true
  | (_, b) :: m => if b.labelLensUniform != initial then false else BlockBody.allUniform initial m
end

/-- block.rs:652-654 `is_label_lens_uniform` -/
def BlockBody.isLabelLensUniform (b : BlockBody) : Bool := b.labelLensUniform.isSome

/-! ## Blocks -/

/-- block.rs:186-190 `Blocks`: a hash map from types -/
abbrev Blocks := List (CowStr × BlockBody)

/-- itertools `group_by`: maximal runs of consecutive blocks with the same key (here the type, compared by text); each
run with the type of its first block -/
def groupBlocks : List Block → List (CowStr × List Block)
  | [] => []
  | b :: bs => match groupBlocks bs with
    | [] => [(b.type, [b])]
    | (t, run) :: gs => if b.type.str = t.str then (b.type, b :: run) :: gs else (b.type, [b]) :: (t, run) :: gs

/-- block.rs:199-205, the loop of `new` -/
def Blocks.insertGroups (m : Blocks) : List (CowStr × List Block) → Blocks
  | [] => m
  | (t, run) :: gs =>
    Blocks.insertGroups
      (HashMap.insert CowStr.str t (BlockBody.fromIter (run.map fun b => (b.labels, b.body))) m) gs

/-- block.rs:193-207 `new` (and 362-369 `from_iter`) -/
def Blocks.new (bs : List Block) : Blocks := Blocks.insertGroups [] (groupBlocks bs)

/-- block.rs:209-220 `append` -/
def Blocks.append (m : Blocks) (b : Block) : Blocks :=
  HashMap.upsert CowStr.str b.type (BlockBody.default.append b.labels b.body) (fun x => x.append b.labels b.body) m

/-- block.rs:371-380 `extend` -/
def Blocks.extend (m : Blocks) : List Block → Blocks
  | [] => m
  | b :: bs => Blocks.extend (m.append b) bs

/-- block.rs:222-231 `get` -/
def Blocks.get (m : Blocks) (type : Str) (labels : List Str) : Option BlockBody :=
  match HashMap.get CowStr.str type m with
  | none => none
  | some b => b.get labels

/-- block.rs:255-271 `flat_iter` -/
def Blocks.flatIter : Blocks → List (Str × List Str × Body)
  | [] => []
  | (t, b) :: m => (b.flatIter.map fun p => (t.str, p.1, p.2)) ++ Blocks.flatIter m

/-- block.rs:314-318 `len_blocks` -/
def Blocks.lenBlocks (m : Blocks) : Nat := m.foldl (fun acc p => p.2.lenBlocks + acc) 0

/-- block.rs:321-326 `label_lens` -/
def Blocks.labelLens (m : Blocks) : List (Str × List Nat) := m.map fun p => (p.1.str, p.2.labelLens)

/-- block.rs:328-333 `label_lens_uniform` -/
def Blocks.labelLensUniform (m : Blocks) : List (Str × Option Nat) := m.map fun p => (p.1.str, p.2.labelLensUniform)

end Verif
