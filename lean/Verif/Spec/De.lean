import Verif.Model.DeTypes
import Verif.Spec.Blocks
/-!
# Specification of deserialization

What a `MapAccess` gives to its user, independently of how it stores its state.
-/
set_option autoImplicit false

namespace Verif.Spec

/-- How reading a map ends. -/
inductive Stop where
  | done
  | error (e : DeErr)
  | panicked
  deriving DecidableEq

/-- Reading a map by `next_key`, `next_value`, `next_key`, … (with seeds that keep what they are given) yields these
entries and then stops in this way. -/
inductive Drains : MapAcc → List (CowStr × Node) → Stop → Prop
  | done (a a' : MapAcc) : a.nextKey .ok = (.ok none, a') → Drains a [] .done
  | keyError (a a' : MapAcc) (e : DeErr) : a.nextKey .ok = (.error e, a') → Drains a [] (.error e)
  | keyPanic (a a' : MapAcc) : a.nextKey .ok = (.panic, a') → Drains a [] .panicked
  | valueError (a a' a'' : MapAcc) (k : CowStr) (e : DeErr) : a.nextKey .ok = (.ok (some k), a') →
      a'.nextValue .ok = (.error e, a'') → Drains a [] (.error e)
  | valuePanic (a a' a'' : MapAcc) (k : CowStr) : a.nextKey .ok = (.ok (some k), a') →
      a'.nextValue .ok = (.panic, a'') → Drains a [] .panicked
  | entry (a a' a'' : MapAcc) (k : CowStr) (n : Node) (es : List (CowStr × Node)) (s : Stop) :
      a.nextKey .ok = (.ok (some k), a') → a'.nextValue .ok = (.ok n, a'') → Drains a'' es s →
      Drains a ((k, n) :: es) s

/-- A call on a map access. -/
inductive MapOp where
  | key
  | value
  deriving DecidableEq

/-- What a call did: the seed was given a key or a value, or the end was reported, or it failed. -/
inductive MapEvent where
  | gaveKey (k : CowStr)
  | ended
  | keyError (e : DeErr)
  | keyPanic
  | gaveValue (n : Node)
  | valueError (e : DeErr)
  | valuePanic

/-- The event of a `next_key` call. -/
def keyEvent : Res DeErr (Option CowStr) → MapEvent
  | .ok none => .ended
  | .ok (some k) => .gaveKey k
  | .error e => .keyError e
  | _ => .keyPanic

/-- The event of a `next_value` call. -/
def valueEvent : Res DeErr Node → MapEvent
  | .ok n => .gaveValue n
  | .error e => .valueError e
  | _ => .valuePanic

/-- Any sequence of calls: the events (the access may be used further after an error, and, if the panic is caught,
after a panic). -/
def runOps (a : MapAcc) : List MapOp → List MapEvent
  | [] => []
  | .key :: ops => keyEvent (a.nextKey .ok).1 :: runOps (a.nextKey .ok).2 ops
  | .value :: ops => valueEvent (a.nextValue .ok).1 :: runOps (a.nextValue .ok).2 ops

/-- The access after these calls. -/
def afterOps (a : MapAcc) : List MapOp → MapAcc
  | [] => a
  | .key :: ops => afterOps (a.nextKey .ok).2 ops
  | .value :: ops => afterOps (a.nextValue .ok).2 ops

/-- The keys given, in order. -/
def keysGiven : List MapEvent → List CowStr
  | [] => []
  | .gaveKey k :: evs => k :: keysGiven evs
  | _ :: evs => keysGiven evs

/-- No value was asked for in these events. -/
def NoValue (evs : List MapEvent) : Prop :=
  ∀ ev ∈ evs, ¬ ((∃ n, ev = .gaveValue n) ∨ (∃ e, ev = .valueError e) ∨ ev = .valuePanic)

/-- `k` is the last key given in these events, and its value has not been asked for. -/
def Pending (evs : List MapEvent) (k : CowStr) : Prop :=
  ∃ pre post, evs = pre ++ .gaveKey k :: post ∧ NoValue post ∧ ∀ k', .gaveKey k' ∉ post

/-- The attributes of a body, in source order. -/
def attrs (b : Body) : List (CowStr × Expr) :=
  b.filterMap fun
    | .attribute k e => some (k, e)
    | .block _ _ _ => none

/-- The blocks of a body, in source order. -/
def blocks (b : Body) : List Block :=
  b.filterMap fun
    | .attribute _ _ => none
    | .block t ls x => some ⟨t, ls, x⟩

/-- No two entries have the same key. -/
def Distinct {α : Type} (l : List (CowStr × α)) : Prop := (l.map fun p => p.1.str).Nodup

/-- An attribute and a block of the body have the same name. -/
def NameClash (b : Body) : Prop := ∃ p ∈ attrs b, ∃ q ∈ blocks b, p.1.str = q.type.str

/-! ## deserialization into types -/

/-- Two lists of the same length whose elements are related one by one. -/
inductive AllRel {α β : Type} (R : α → β → Prop) : List α → List β → Prop
  | nil : AllRel R [] []
  | cons (a : α) (b : β) (as : List α) (bs : List β) : R a b → AllRel R as bs → AllRel R (a :: as) (b :: bs)

/-- The expression has no object key that is an expression, at any depth. -/
inductive PlainExpr : Expr → Prop
  | null : PlainExpr .null
  | number (n : Number) : PlainExpr (.number n)
  | boolean (b : Bool) : PlainExpr (.boolean b)
  | string (s : CowStr) : PlainExpr (.string s)
  | tuple (es : List Expr) : (∀ e ∈ es, PlainExpr e) → PlainExpr (.tuple es)
  | object (o : List (ObjKey × Expr)) : (∀ p ∈ o, ∃ k, p.1 = .ident k) → (∀ p ∈ o, PlainExpr p.2) → PlainExpr (.object o)

/-- At every depth: no expression keys, no labels on blocks, no block with the name of an attribute beside it. -/
inductive PlainBody : Body → Prop
  | mk (b : Body) : (∀ p ∈ attrs b, PlainExpr p.2) → (∀ q ∈ blocks b, q.labels = []) →
      (∀ q ∈ blocks b, PlainBody q.body) → ¬ NameClash b → PlainBody b

/-- The value that the body has under this name: that of an attribute, or the blocks of this type, in the last run of
consecutive blocks of this type. -/
def EntryOf (b : Body) (name : Str) (n : Node) : Prop :=
  (∃ k e, (k, e) ∈ attrs b ∧ k.str = name ∧ n = .expr e) ∨
  ∃ run, LastRun name (blocks b) run ∧ n = .block (BlockBody.fromIter (run.map fun q => (q.labels, q.body)))

/-- Equal up to the order of the entries of maps. -/
inductive SameVal : DVal → DVal → Prop
  | refl (v : DVal) : SameVal v v
  | some (v v' : DVal) : SameVal v v' → SameVal (.some v) (.some v')
  | seq (vs vs' : List DVal) : vs.length = vs'.length → (∀ p ∈ vs.zip vs', SameVal p.1 p.2) → SameVal (.seq vs) (.seq vs')
  | entries (es es' es'' : List (Str × DVal)) : es.map Prod.fst = es'.map Prod.fst →
      (∀ p ∈ es.zip es', SameVal p.1.2 p.2.2) → es'.Perm es'' → SameVal (.entries es) (.entries es'')

end Verif.Spec
