import Verif.Model.Parser
/-! # What an iterator yields -/
set_option autoImplicit false

namespace Verif.Spec

/-- The iterator after `n` calls of `next`. -/
def after {σ α : Type} (next : σ → Option α × σ) : Nat → σ → σ
  | 0, it => it
  | n + 1, it => after next n (next it).2

/-- The iterator yields exactly `xs`: call number `n` (from 0) returns the `n`-th item, and `None` for every call after
the last; and before each call `size_hint` is exactly the number of items to come. -/
def Yields {σ α : Type} (next : σ → Option α × σ) (sizeHint : σ → Nat × Option Nat) (it : σ) (xs : List α) : Prop :=
  ∀ n, (next (after next n it)).1 = xs[n]? ∧
    sizeHint (after next n it) = (xs.length - n, some (xs.length - n))

/-- The values listed under the key `q`, in order. -/
def valuesUnder {K V Q : Type} [DecidableEq Q] (borrow : K → Q) (q : Q) : List (K × V) → List V
  | [] => []
  | (k, v) :: l => if borrow k = q then v :: valuesUnder borrow q l else valuesUnder borrow q l

end Verif.Spec
