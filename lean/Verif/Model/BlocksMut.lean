import Verif.Model.Blocks
/-!
# Changing blocks in place (lib/src/parser/block.rs:233-242, 249-251, 273-306, 463-480, 509-560)

A `&mut T` into a structure is modelled by the value it points at together with what the structure becomes when a value is
written there. A program that runs through a mutable iterator is modelled by its step: from its own state and the item it gets,
its next state and what it writes to the item.
-/
set_option autoImplicit false

namespace Verif

/-- std `HashMap::get_mut::<Q>`: the value of an entry whose key borrows as `q` -/
def HashMap.getMut {K V Q : Type} [DecidableEq Q] (borrow : K → Q) (q : Q) : HashMap K V → Option (V × (V → HashMap K V))
  | [] => none
  | (k, v) :: m =>
    if borrow k = q then some (v, fun w => (k, w) :: m)
    else match HashMap.getMut borrow q m with
      | none => none
      | some (x, put) => some (x, fun w => (k, v) :: put w)

/-- block.rs:463-480 `get_mut` -/
def BlockBody.getMut : BlockBody → List Str → Option (BlockBody × (BlockBody → BlockBody))
  | b, [] => some (b, fun x => x)
  | .body _, _ :: _ => none
  | .labels empty m, l :: ls => match HashMap.getMut BlockLabel.text l m with
    | none => none
    | some (inner, put) => match inner.getMut ls with
      | none => none
      | some (x, p) => some (x, fun y => .labels empty (put (p y)))

/-- block.rs:233-242 `Blocks::get_mut` -/
def Blocks.getMut (m : Blocks) (type : Str) (labels : List Str) : Option (BlockBody × (BlockBody → Blocks)) :=
  match HashMap.getMut CowStr.str type m with
  | none => none
  | some (body, put) => match body.getMut labels with
    | none => none
    | some (x, p) => some (x, fun y => put (p y))

/-- block.rs:517-518, 525-527: `iter_mut` over bodies without further labels -/
def visitBodies {σ : Type} (f : σ → List Str → Body → σ × Body) (s : σ) : List Body → σ × List Body
  | [] => (s, [])
  | x :: xs =>
    let r := f s [] x
    let q := visitBodies f r.1 xs
    (q.1, r.2 :: q.2)

mutual
/-- block.rs:509-535 `flat_iter_mut`, run by a program with step `f` from state `s` -/
def BlockBody.flatIterMut {σ : Type} : (σ → List Str → Body → σ × Body) → σ → BlockBody → σ × BlockBody
  | f, s, .body bodies =>
    let r := visitBodies f s bodies
    (r.1, .body r.2)
  | f, s, .labels empty m =>
    let r := visitBodies f s empty
    let q := BlockBody.flatIterMutLabels f r.1 m
    (q.1, .labels r.2 q.2)
/-- block.rs:528-534, the loop over the labels: `push_front` puts the label before the others -/
def BlockBody.flatIterMutLabels {σ : Type} : (σ → List Str → Body → σ × Body) → σ → List (BlockLabel × BlockBody) →
    σ × List (BlockLabel × BlockBody)
  | _, s, [] => (s, [])
  | f, s, (label, b) :: m =>
    let r := b.flatIterMut (fun s ls x => f s (label.text :: ls) x) s
    let q := BlockBody.flatIterMutLabels f r.1 m
    (q.1, (label, r.2) :: q.2)
end

/-- block.rs:273-293 `Blocks::flat_iter_mut` -/
def Blocks.flatIterMut {σ : Type} (f : σ → Str → List Str → Body → σ × Body) (s : σ) : Blocks → σ × Blocks
  | [] => (s, [])
  | (t, b) :: m =>
    let r := b.flatIterMut (fun s ls x => f s t.str ls x) s
    let q := Blocks.flatIterMut f r.1 m
    (q.1, (t, r.2) :: q.2)

/-- block.rs:249-251 `Blocks::iter_mut` and 355-362 `IntoIterator for &mut Blocks` -/
def Blocks.iterMut {σ : Type} (f : σ → CowStr → BlockBody → σ × BlockBody) (s : σ) : Blocks → σ × Blocks
  | [] => (s, [])
  | (t, b) :: m =>
    let r := f s t b
    let q := Blocks.iterMut f r.1 m
    (q.1, (t, r.2) :: q.2)

/-- block.rs:71-76 `as_cow` -/
def BlockLabel.asCow : BlockLabel → CowStr
  | .stringLiteral s => .ownedS s
  | .identifier s => s

mutual
/-- block.rs:537-560 `flat_into_iter` -/
def BlockBody.flatIntoIter : BlockBody → List (List CowStr × Body)
  | .body bodies => bodies.map fun x => ([], x)
  | .labels empty m => empty.map (fun x => ([], x)) ++ BlockBody.flatIntoIterLabels m
/-- block.rs:550-556, the loop over the labels -/
def BlockBody.flatIntoIterLabels : List (BlockLabel × BlockBody) → List (List CowStr × Body)
  | [] => []
  | (label, b) :: m => (b.flatIntoIter.map fun p => (label.asCow :: p.1, p.2)) ++ BlockBody.flatIntoIterLabels m
end

/-- block.rs:295-306 `Blocks::flat_into_iter` -/
def Blocks.flatIntoIter : Blocks → List (CowStr × List CowStr × Body)
  | [] => []
  | (t, b) :: m => (b.flatIntoIter.map fun p => (t, p.1, p.2)) ++ Blocks.flatIntoIter m

/-- block.rs:309-311 `Blocks::len` -/
def Blocks.len (m : Blocks) : Nat := m.length
/-- block.rs:314-316 `Blocks::is_empty` -/
def Blocks.isEmpty (m : Blocks) : Bool := m.len == 0

end Verif
