import Verif.Model.Value
import Verif.Spec.Lex
import Verif.Spec.Iter
/-!
# Specification of value trees and merging

Keys of maps are compared by variant (identifier / string) and text, `Key.norm`; label paths of blocks are lists of
strings. `HashMap.get key m` is the lookup in a merged map.
-/
set_option autoImplicit false

namespace Verif.Spec

/-- A place in a value tree: a value, a map, or the set of blocks of one type. -/
inductive Node where
  | val (v : Value)
  | map (m : MapValues)
  | blk (b : VBlock)

/-- Direct parts. -/
inductive Child : Node → Node → Prop
  | list (l : List Value) (v : Value) : v ∈ l → Child (.val (.list l)) (.val v)
  | object (l : List MapValues) (m : MapValues) : m ∈ l → Child (.val (.object l)) (.map m)
  | block (b : VBlock) : Child (.val (.block b)) (.blk b)
  | body (b : VBlock) (p : List Str × MapValues) : p ∈ b.entries → Child (.blk b) (.map p.2)
  | entry (m : MapValues) (p : Key × Value) : p ∈ m.entries → Child (.map m) (.val p.2)

/-- `y` is `x` or occurs somewhere in it. -/
inductive Inside : Node → Node → Prop
  | refl (x : Node) : Inside x x
  | step (x y z : Node) : Child x y → Inside y z → Inside x z

/-- A Null value occurs in `x`. -/
def HasNull (x : Node) : Prop := Inside x (.val .null)
/-- An unmerged map or block set occurs in `x`. -/
def HasUnmerged (x : Node) : Prop := (∃ es, Inside x (.map (.unmerged es))) ∨ ∃ es, Inside x (.blk (.unmerged es))
/-- A merged map or block set occurs in `x`. -/
def HasMerged (x : Node) : Prop := (∃ es, Inside x (.map (.merged es))) ∨ ∃ es, Inside x (.blk (.merged es))
/-- The merged maps occurring in `x` are merged all the way down (trivially true of what the parser returns, where every
map is unmerged). -/
def MergedMapsComplete (x : Node) : Prop := ∀ m, Inside x (.map (.merged m)) → ¬ HasUnmerged (.map (.merged m))

mutual
/-- The scalars (and nulls) of a value, in order. -/
def leaves : Value → List Value
  | .null => [.null]
  | .integer i => [.integer i]
  | .float f => [.float f]
  | .boolean b => [.boolean b]
  | .string s => [.string s]
  | .list l => listLeaves l
  | .object l => mapsLeaves l
  | .block b => blockLeaves b
/-- The leaves of the elements of a list. -/
def listLeaves : List Value → List Value
  | [] => []
  | v :: l => leaves v ++ listLeaves l
/-- The leaves of several maps. -/
def mapsLeaves : List (KVP Key Value) → List Value
  | [] => []
  | m :: l => mapLeaves m ++ mapsLeaves l
/-- The leaves of a map. -/
def mapLeaves : KVP Key Value → List Value
  | .merged l => entriesLeaves l
  | .unmerged l => entriesLeaves l
/-- The leaves of the entries of a map. -/
def entriesLeaves : List (Key × Value) → List Value
  | [] => []
  | (_, v) :: l => leaves v ++ entriesLeaves l
/-- The leaves of a set of blocks. -/
def blockLeaves : KVP (List Str) (KVP Key Value) → List Value
  | .merged l => bodiesLeaves l
  | .unmerged l => bodiesLeaves l
/-- The leaves of the bodies of blocks. -/
def bodiesLeaves : List (List Str × KVP Key Value) → List Value
  | [] => []
  | (_, m) :: l => mapLeaves m ++ bodiesLeaves l
end

/-! ## when merging is legal -/

/-- Two entries of one map may carry the same key: both are objects or both are blocks. -/
inductive MayShare : Value → Value → Prop
  | objects (a b : List MapValues) : MayShare (.object a) (.object b)
  | blocks (a b : VBlock) : MayShare (.block a) (.block b)

/-- No key is repeated illegally. -/
def NoClash (es : List (Key × Value)) : Prop :=
  es.Pairwise fun a b => a.1.norm = b.1.norm → MayShare a.2 b.2

mutual
/-- `es` are the entries of an unmerged map occurring in the value (outside maps that are already merged, which merging
leaves alone). -/
inductive MapIn : Value → List (Key × Value) → Prop
  | list (l : List Value) (v : Value) (es : List (Key × Value)) : v ∈ l → MapIn v es → MapIn (.list l) es
  | object (l : List MapValues) (m : MapValues) (es : List (Key × Value)) : m ∈ l → MapInMap m es → MapIn (.object l) es
  | block (b : VBlock) (p : List Str × MapValues) (es : List (Key × Value)) : p ∈ b.entries → MapInMap p.2 es →
      MapIn (.block b) es
/-- The same for a map. -/
inductive MapInMap : MapValues → List (Key × Value) → Prop
  | here (es : List (Key × Value)) : MapInMap (.unmerged es) es
  | entry (l : List (Key × Value)) (p : Key × Value) (es : List (Key × Value)) : p ∈ l → MapIn p.2 es →
      MapInMap (.unmerged l) es
end

/-- The error that describes the clash of two entries with the same key, the first entry carrying `a`, the other `b`. -/
inductive ClashError (key : Str) : Value → Value → ValueErr → Prop
  | illegal (a b : Value) : a.variant ≠ .object → a.variant ≠ .block →
      ClashError key a b (.illegalMultipleEntries key a.variant)
  | object (a b : Value) : a.variant = .object → b.variant ≠ .object →
      ClashError key a b (.errorMergingKeys key .object b.variant)
  | block (a b : Value) : a.variant = .block → b.variant ≠ .block →
      ClashError key a b (.errorMergingKeys key .block b.variant)

/-- The entries contain two entries with the same key that clash with error `e`; the first is the first entry with that
key. -/
def Clash (es : List (Key × Value)) (e : ValueErr) : Prop :=
  ∃ pre a mid b post, es = pre ++ a :: mid ++ b :: post ∧ a.1.norm = b.1.norm ∧
    (∀ p ∈ pre, p.1.norm ≠ a.1.norm) ∧ ClashError a.1.text a.2 b.2 e

/-! ## what merging yields -/

/-- A block set `m` in which every label path carries the last body that `es` lists for it. -/
def LastWins (es : List (List Str × MapValues)) (m : List (List Str × MapValues)) : Prop :=
  (m.map Prod.fst).Nodup ∧ ∀ ls, HashMap.get id ls m = (valuesUnder id ls es).getLast?

/-- What a key carries after merging, given the (merged) values listed under it. -/
inductive Combined : List Value → Option Value → Prop
  | none : Combined [] none
  | single (v : Value) : Combined [v] (some v)
  | objects (ls : List (List MapValues)) : ls ≠ [] → Combined (ls.map .object) (some (.object ls.flatten))
  | blocks (bs : List VBlock) (m : List (List Str × MapValues)) : bs ≠ [] →
      LastWins (bs.flatMap KVP.entries) m → Combined (bs.map .block) (some (.block (.merged m)))

mutual
/-- `Merges v w`: `w` is the merged form of `v`. -/
inductive Merges : Value → Value → Prop
  | scalar (v : Value) : v.variant ≠ .list → v.variant ≠ .object → v.variant ≠ .block → Merges v v
  | list (l l' : List Value) : MergesList l l' → Merges (.list l) (.list l')
  | object (l l' : List MapValues) : MergesMaps l l' → Merges (.object l) (.object l')
  | block (b : VBlock) (es m : List (List Str × MapValues)) : MergesBodies b.entries es → LastWins es m →
      Merges (.block b) (.block (.merged m))
/-- Lists element by element. -/
inductive MergesList : List Value → List Value → Prop
  | nil : MergesList [] []
  | cons (v w : Value) (l l' : List Value) : Merges v w → MergesList l l' → MergesList (v :: l) (w :: l')
/-- Maps one by one. -/
inductive MergesMaps : List MapValues → List MapValues → Prop
  | nil : MergesMaps [] []
  | cons (m n : MapValues) (l l' : List MapValues) : MergesMap m n → MergesMaps l l' → MergesMaps (m :: l) (n :: l')
/-- A map: unique keys, each carrying the combination of the merged values listed under it. -/
inductive MergesMap : MapValues → MapValues → Prop
  | already (m : List (Key × Value)) : MergesMap (.merged m) (.merged m)
  | unmerged (es es' m : List (Key × Value)) : MergesEntries es es' → (m.map fun p => p.1.norm).Nodup →
      (∀ k, Combined (valuesUnder Key.norm k es') (HashMap.get Key.norm k m)) → MergesMap (.unmerged es) (.merged m)
/-- Entries one by one. -/
inductive MergesEntries : List (Key × Value) → List (Key × Value) → Prop
  | nil : MergesEntries [] []
  | cons (k : Key) (v w : Value) (l l' : List (Key × Value)) : Merges v w → MergesEntries l l' →
      MergesEntries ((k, v) :: l) ((k, w) :: l')
/-- Bodies one by one. -/
inductive MergesBodies : List (List Str × MapValues) → List (List Str × MapValues) → Prop
  | nil : MergesBodies [] []
  | cons (k : List Str) (v w : MapValues) (l l' : List (List Str × MapValues)) : MergesMap v w → MergesBodies l l' →
      MergesBodies ((k, v) :: l) ((k, w) :: l')
end

/-! ## repeated labels -/

/-- The blocks that the values contain, in order, with their label paths. -/
def blockEntries : List Value → List (List Str × MapValues)
  | [] => []
  | .block b :: l => b.entries ++ blockEntries l
  | _ :: l => blockEntries l

mutual
/-- No two blocks of the same type in the same unmerged map (outside already merged maps) have the same labels, at any
depth. -/
inductive LabelsDistinct : Value → Prop
  | scalar (v : Value) : v.variant ≠ .list → v.variant ≠ .object → v.variant ≠ .block → LabelsDistinct v
  | list (l : List Value) : (∀ v ∈ l, LabelsDistinct v) → LabelsDistinct (.list l)
  | object (l : List MapValues) : (∀ m ∈ l, LabelsDistinctMap m) → LabelsDistinct (.object l)
  | block (b : VBlock) : (b.entries.map Prod.fst).Nodup → (∀ p ∈ b.entries, LabelsDistinctMap p.2) →
      LabelsDistinct (.block b)
/-- The same for a map: all blocks under one key count. -/
inductive LabelsDistinctMap : MapValues → Prop
  | merged (m : List (Key × Value)) : LabelsDistinctMap (.merged m)
  | unmerged (es : List (Key × Value)) : (∀ p ∈ es, LabelsDistinct p.2) →
      (∀ k, ((blockEntries (valuesUnder Key.norm k es)).map Prod.fst).Nodup) → LabelsDistinctMap (.unmerged es)
end

end Verif.Spec
