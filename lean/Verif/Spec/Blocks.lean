import Verif.Model.Blocks
/-!
# Specification of indexed blocks

`b.flatIter` is the list of all (label path, body) pairs in a `BlockBody`; `BlockLabel.norm` is what equality of labels
compares (variant and text), `BlockLabel.text` what a lookup compares (text).
-/
set_option autoImplicit false

namespace Verif.Spec

/-- `c` is `b` or occurs in it under some labels. -/
inductive Sub : BlockBody → BlockBody → Prop
  | refl (b : BlockBody) : Sub b b
  | step (e : List Body) (m : List (BlockLabel × BlockBody)) (p : BlockLabel × BlockBody) (c : BlockBody) :
      p ∈ m → Sub p.2 c → Sub (.labels e m) c

/-- `c` is stored in `b` under the label path. -/
inductive At : BlockBody → List BlockLabel → BlockBody → Prop
  | here (b : BlockBody) : At b [] b
  | step (e : List Body) (m : List (BlockLabel × BlockBody)) (p : BlockLabel × BlockBody) (l : BlockLabel)
      (ls : List BlockLabel) (c : BlockBody) : p ∈ m → p.1.norm = l.norm → At p.2 ls c → At (.labels e m) (l :: ls) c

/-- Hash maps have no key twice: true of every Rust `HashMap`. -/
def UniqueLabels (b : BlockBody) : Prop := ∀ e m, Sub b (.labels e m) → (m.map fun p => p.1.norm).Nodup

/-- No two labels side by side have the same text (for instance because all are string literals, or all identifiers). -/
def UniqueTexts (b : BlockBody) : Prop := ∀ e m, Sub b (.labels e m) → (m.map fun p => p.1.text).Nodup

/-- No empty parts. -/
def Filled (b : BlockBody) : Prop :=
  (∀ bodies, Sub b (.body bodies) → bodies ≠ []) ∧ ∀ e m, Sub b (.labels e m) → m ≠ []

mutual
/-- Equal up to the iteration order of hash maps. -/
inductive SameBlocks : BlockBody → BlockBody → Prop
  | body (bodies : List Body) : SameBlocks (.body bodies) (.body bodies)
  | labels (e : List Body) (m m' : List (BlockLabel × BlockBody)) : SameLabels m m' →
      SameBlocks (.labels e m) (.labels e m')
/-- The same entries in some order. -/
inductive SameLabels : List (BlockLabel × BlockBody) → List (BlockLabel × BlockBody) → Prop
  | nil : SameLabels [] []
  | cons (k : BlockLabel) (b b' : BlockBody) (m m' : List (BlockLabel × BlockBody)) : SameBlocks b b' →
      SameLabels m m' → SameLabels ((k, b) :: m) ((k, b') :: m')
  | swap (p q : BlockLabel × BlockBody) (m m' : List (BlockLabel × BlockBody)) : SameLabels m m' →
      SameLabels (p :: q :: m) (q :: p :: m')
  | trans (a b c : List (BlockLabel × BlockBody)) : SameLabels a b → SameLabels b c → SameLabels a c
end

/-- `Built b history`: `b` results from the empty `BlockBody` by appending the blocks of `history` in order, hash maps
being in any order at any time. -/
inductive Built : BlockBody → List (List BlockLabel × Body) → Prop
  | default : Built .default []
  | append (b : BlockBody) (h : List (List BlockLabel × Body)) (ls : List BlockLabel) (x : Body) : Built b h →
      Built (b.append ls x) (h ++ [(ls, x)])
  | reorder (b b' : BlockBody) (h : List (List BlockLabel × Body)) : Built b h → SameBlocks b b' → Built b' h

/-- Among the labels of `history`, those with the same text are of the same kind: it never has both a string literal
and an identifier with that text. -/
def ConsistentLabels (history : List (List BlockLabel × Body)) : Prop :=
  ∀ p ∈ history, ∀ l ∈ p.1, ∀ p' ∈ history, ∀ l' ∈ p'.1, l.text = l'.text → l.norm = l'.norm

/-- Some place in `b` has both blocks that end there and further labels. -/
def Mixed (b : BlockBody) : Prop := ∃ e m, Sub b (.labels e m) ∧ e ≠ [] ∧ m ≠ []

/-- Appending a block with labels `ls` to `b` drops labels: following `ls` one reaches a place that has labels, but not
the next one, and that is not the last of `ls`. -/
def Lost (b : BlockBody) (ls : List BlockLabel) : Prop :=
  ∃ q l r e m, ls = q ++ l :: r ∧ r ≠ [] ∧ At b q (.labels e m) ∧ ∀ p ∈ m, p.1.norm ≠ l.norm

/-- The bodies stored in `b` directly under the label path. -/
def bodiesAt (b : BlockBody) (ls : List Str) : List Body :=
  match b.get ls with
  | none => []
  | some c => c.getEmpty

/-- Equal up to the iteration order of all hash maps. -/
inductive SameTypes : Blocks → Blocks → Prop
  | nil : SameTypes [] []
  | cons (t : CowStr) (b b' : BlockBody) (m m' : Blocks) : SameBlocks b b' → SameTypes m m' →
      SameTypes ((t, b) :: m) ((t, b') :: m')
  | swap (p q : CowStr × BlockBody) (m m' : Blocks) : SameTypes m m' → SameTypes (p :: q :: m) (q :: p :: m')
  | trans (a b c : Blocks) : SameTypes a b → SameTypes b c → SameTypes a c

/-- `BuiltBlocks m history`: `m` results from no blocks by appending the blocks of `history` in order, hash maps
being in any order at any time. -/
inductive BuiltBlocks : Blocks → List Block → Prop
  | empty : BuiltBlocks [] []
  | append (m : Blocks) (h : List Block) (b : Block) : BuiltBlocks m h → BuiltBlocks (m.append b) (h ++ [b])
  | reorder (m m' : Blocks) (h : List Block) : BuiltBlocks m h → SameTypes m m' → BuiltBlocks m' h

/-- The labels and bodies of the blocks of type `t`, in order. -/
def ofType (t : Str) (bs : List Block) : List (List BlockLabel × Body) :=
  (bs.filter fun b => decide (b.type.str = t)).map fun b => (b.labels, b.body)

/-- `run` is the last maximal run of consecutive blocks of type `t` in `bs`. -/
def LastRun (t : Str) (bs run : List Block) : Prop :=
  ∃ pre post, bs = pre ++ run ++ post ∧ run ≠ [] ∧ (∀ b ∈ run, b.type.str = t) ∧ (∀ b ∈ post, b.type.str ≠ t) ∧
    ∀ b, pre.getLast? = some b → b.type.str ≠ t

/-- Blocks of the same type are adjacent. -/
def TypesAdjacent (bs : List Block) : Prop :=
  ∀ pre a mid c post, bs = pre ++ a :: mid ++ c :: post → a.type.str = c.type.str → ∀ b ∈ mid, b.type.str = a.type.str

end Verif.Spec
