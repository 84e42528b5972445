import Verif.Model.Value
import Verif.Spec.Iter
/-! # Containers and accessors: C34, C35, C36 -/
set_option autoImplicit false

namespace Verif.Props
open Verif Spec

/-! ## C35 -/

theorem yields_of_step {σ α : Type} {next : σ → Option α × σ} {hint : σ → Nat × Option Nat} (state : List α → σ)
    (hnil : next (state []) = (none, state [])) (hcons : ∀ x xs, next (state (x :: xs)) = (some x, state xs))
    (hhint : ∀ xs, hint (state xs) = (xs.length, some xs.length)) (xs : List α) : Yields next hint (state xs) xs := by
  intro n
  induction n generalizing xs with
  | zero => cases xs with
    | nil => simp [after, hnil, hhint]
    | cons x xs => simp [after, hcons, hhint]
  | succ n ih => cases xs with
    | nil =>
      have := ih []
      simp only [after, hnil]
      simpa using this
    | cons x xs =>
      have := ih xs
      simp only [after, hcons, List.getElem?_cons_succ, List.length_cons, Nat.add_sub_add_right]
      exact this

/-- C35: the iterators of `OneOrMany` (borrowing and consuming) yield exactly `len()` items, in order, `size_hint` is
exact at every step, and after the last item they keep returning `None`. -/
theorem c35_one_or_many {T : Type} (o : OneOrMany T) :
    ∃ xs, Yields OneOrManyIter.next OneOrManyIter.sizeHint o.iter xs ∧ xs.length = o.len ∧
      (∀ v, o = .one v → xs = [v]) ∧ (∀ vs, o = .many vs → xs = vs) := by
  cases o with
  | one v =>
    refine ⟨[v], ?_, rfl, fun w h => (by cases h; rfl), fun vs h => (by cases h)⟩
    have h0 : ∀ n, after OneOrManyIter.next n (.one (none : Option T)) = .one none := by
      intro n
      induction n with
      | zero => rfl
      | succ n ih => simpa [after, OneOrManyIter.next] using ih
    intro n
    cases n with
    | zero => simp [after, OneOrMany.iter, OneOrManyIter.next, OneOrManyIter.sizeHint]
    | succ n => simp [after, OneOrMany.iter, OneOrManyIter.next, h0, OneOrManyIter.sizeHint]
  | many vs =>
    refine ⟨vs, yields_of_step (next := OneOrManyIter.next) (hint := OneOrManyIter.sizeHint) OneOrManyIter.many rfl
      (fun _ _ => rfl) (fun _ => rfl) vs, rfl, fun w h => (by cases h), fun ws h => (by cases h; rfl)⟩

theorem kvpIter_merged {T : Type} (xs : List T) : Yields KVPIter.next KVPIter.sizeHint (.merged xs) xs :=
  yields_of_step (next := KVPIter.next) (hint := KVPIter.sizeHint) KVPIter.merged rfl (fun _ _ => rfl) (fun _ => rfl) xs
theorem kvpIter_unmerged {T : Type} (xs : List T) : Yields KVPIter.next KVPIter.sizeHint (.unmerged xs) xs :=
  yields_of_step (next := KVPIter.next) (hint := KVPIter.sizeHint) KVPIter.unmerged rfl (fun _ _ => rfl) (fun _ => rfl) xs

/-- C35: the iterators of `KeyValuePairs` (pairs, keys, values) yield exactly `len()` items with exact `size_hint`s;
`keys` and `values` are the projections of `iter`, in the same order. -/
theorem c35_key_value_pairs {K V : Type} (p : KVP K V) :
    ∃ xs : List (K × V), xs.length = p.len ∧
      Yields KVPIter.next KVPIter.sizeHint p.iter xs ∧
      Yields KVPIter.next KVPIter.sizeHint p.keys (xs.map Prod.fst) ∧
      Yields KVPIter.next KVPIter.sizeHint p.values (xs.map Prod.snd) := by
  cases p with
  | merged m => exact ⟨m, rfl, kvpIter_merged _, kvpIter_merged _, kvpIter_merged _⟩
  | unmerged l => exact ⟨l, rfl, kvpIter_unmerged _, kvpIter_unmerged _, kvpIter_unmerged _⟩

/-- An iterator yields one sequence only: `Yields` determines it. -/
theorem yields_unique {σ α : Type} {next : σ → Option α × σ} {hint : σ → Nat × Option Nat} {it : σ} {xs ys : List α}
    (hx : Yields next hint it xs) (hy : Yields next hint it ys) : xs = ys := by
  apply List.ext_getElem?
  intro n
  rw [← (hx n).1, ← (hy n).1]

/-! ## C34 -/

theorem filter_values {K V Q : Type} [DecidableEq Q] (borrow : K → Q) (q : Q) (l : List (K × V)) :
    (l.filter fun p => decide (q = borrow p.1)).map Prod.snd = valuesUnder borrow q l := by
  induction l with
  | nil => rfl
  | cons p l ih =>
    obtain ⟨k, v⟩ := p
    by_cases h : borrow k = q
    · simp [List.filter, valuesUnder, h]
      simpa using ih
    · have h' : ¬ q = borrow k := fun e => h e.symm
      simp [List.filter, valuesUnder, h, h']
      simpa using ih

theorem find_values {K V Q : Type} [DecidableEq Q] (borrow : K → Q) (q : Q) (l : List (K × V)) :
    (l.find? fun p => decide (q = borrow p.1)).map Prod.snd = (valuesUnder borrow q l).head? := by
  induction l with
  | nil => rfl
  | cons p l ih =>
    obtain ⟨k, v⟩ := p
    by_cases h : borrow k = q
    · simp [List.find?, valuesUnder, h]
    · have h' : ¬ q = borrow k := fun e => h e.symm
      simp only [List.find?, valuesUnder, if_neg h, decide_eq_false h']
      exact ih

theorem hashMap_get_values {K V Q : Type} [DecidableEq Q] (borrow : K → Q) (q : Q) (l : List (K × V)) :
    HashMap.get borrow q l = (valuesUnder borrow q l).head? := by
  induction l with
  | nil => rfl
  | cons p l ih =>
    obtain ⟨k, v⟩ := p
    by_cases h : borrow k = q
    · simp [HashMap.get, valuesUnder, h]
    · simp [HashMap.get, valuesUnder, h, ih]

theorem valuesUnder_nil_of_not_mem {K V Q : Type} [DecidableEq Q] (borrow : K → Q) (q : Q) (l : List (K × V))
    (h : ∀ p ∈ l, borrow p.1 ≠ q) : valuesUnder borrow q l = [] := by
  induction l with
  | nil => rfl
  | cons p l ih =>
    simp only [valuesUnder, if_neg (h p (by simp))]
    exact ih fun p' hp => h p' (by simp [hp])

theorem valuesUnder_length_le_one {K V Q : Type} [DecidableEq Q] (borrow : K → Q) (q : Q) (l : List (K × V))
    (h : (l.map fun p => borrow p.1).Nodup) : (valuesUnder borrow q l).length ≤ 1 := by
  induction l with
  | nil => simp [valuesUnder]
  | cons p l ih =>
    obtain ⟨k, v⟩ := p
    simp only [List.map_cons, List.nodup_cons] at h
    by_cases hk : borrow k = q
    · rw [valuesUnder, if_pos hk, valuesUnder_nil_of_not_mem]
      · simp
      · intro p hp he
        exact h.1 (List.mem_map.mpr ⟨p, hp, by rw [he, hk]⟩)
    · rw [valuesUnder, if_neg hk]
      exact ih h.2

/-- The values a lookup returns. -/
def found {V : Type} : Option (OneOrMany V) → List V
  | none => []
  | some (.one v) => [v]
  | some (.many vs) => vs

/-- C34: `get(q)` returns exactly the values that iteration lists under `q`, in order (and `None` iff there is none);
for a merged map the keys are unique, as in every hash map. -/
theorem c34_get {K V Q : Type} [DecidableEq Q] (borrow : K → Q) (q : Q) (p : KVP K V) (xs : List (K × V))
    (hiter : Yields KVPIter.next KVPIter.sizeHint p.iter xs)
    (huniq : ∀ m, p = .merged m → (xs.map fun e => borrow e.1).Nodup) :
    found (p.get borrow q) = valuesUnder borrow q xs ∧
    (p.get borrow q = none ↔ ∀ e ∈ xs, borrow e.1 ≠ q) := by
  have key : found (p.get borrow q) = valuesUnder borrow q xs ∧ (p.get borrow q = none ↔ valuesUnder borrow q xs = []) := by
    cases p with
    | merged m =>
      have hxs : xs = m := yields_unique hiter (kvpIter_merged m)
      subst hxs
      have h1 := valuesUnder_length_le_one borrow q xs (huniq xs rfl)
      simp only [KVP.get, hashMap_get_values]
      match hv : valuesUnder borrow q xs, h1 with
      | [], _ => simp [found]
      | [v], _ => simp [found]
      | _ :: _ :: _, h1 => simp at h1
    | unmerged l =>
      have hxs : xs = l := yields_unique hiter (kvpIter_unmerged l)
      subst hxs
      simp only [KVP.get, filter_values]
      match hv : valuesUnder borrow q xs with
      | [] => simp [found]
      | v :: vs => simp [found]
  refine ⟨key.1, key.2.trans ⟨?_, ?_⟩⟩
  · intro h e he hq
    clear hiter huniq key
    induction xs with
    | nil => cases he
    | cons x xs ih =>
      obtain ⟨k, v⟩ := x
      by_cases hk : borrow k = q
      · simp [valuesUnder, hk] at h
      · rw [valuesUnder, if_neg hk] at h
        rcases List.mem_cons.mp he with rfl | he
        · exact hk hq
        · exact ih h he
  · exact fun h => valuesUnder_nil_of_not_mem borrow q xs h

/-- C34: `get_single(q)` (and indexing, which panics where it returns `None`) is the first value iterated under `q`. -/
theorem c34_get_single {K V Q : Type} [DecidableEq Q] (borrow : K → Q) (q : Q) (p : KVP K V) (xs : List (K × V))
    (hiter : Yields KVPIter.next KVPIter.sizeHint p.iter xs) :
    p.getSingle borrow q = (valuesUnder borrow q xs).head? ∧ p.index borrow q = (valuesUnder borrow q xs).head? := by
  cases p with
  | merged m =>
    have hxs : xs = m := yields_unique hiter (kvpIter_merged m)
    subst hxs
    exact ⟨hashMap_get_values borrow q xs, hashMap_get_values borrow q xs⟩
  | unmerged l =>
    have hxs : xs = l := yields_unique hiter (kvpIter_unmerged l)
    subst hxs
    exact ⟨find_values borrow q xs, find_values borrow q xs⟩

/-- C34: a lookup in a merged map gives `One`, in an unmerged map `Many` (even for one value), never an empty `Many`. -/
theorem c34_get_variant {K V Q : Type} [DecidableEq Q] (borrow : K → Q) (q : Q) (p : KVP K V) (o : OneOrMany V)
    (h : p.get borrow q = some o) : (o.isOne = true ↔ ∃ m, p = .merged m) ∧ o.isEmpty = false := by
  cases p with
  | merged m =>
    simp only [KVP.get, Option.map_eq_some_iff] at h
    obtain ⟨v, -, rfl⟩ := h
    simp [OneOrMany.isOne, OneOrMany.isEmpty, OneOrMany.len]
  | unmerged l =>
    simp only [KVP.get] at h
    split at h
    · cases h
    · rename_i hne
      cases h
      simp only [OneOrMany.isOne, OneOrMany.isEmpty, OneOrMany.len]
      refine ⟨by simp, ?_⟩
      simpa using hne

/-- C34: `len` is the number of iterated pairs, `is_empty` iff there is none. -/
theorem c34_len {K V : Type} (p : KVP K V) (xs : List (K × V)) (h : Yields KVPIter.next KVPIter.sizeHint p.iter xs) :
    p.len = xs.length ∧ (p.isEmpty = true ↔ xs = []) := by
  obtain ⟨ys, hl, hy, -, -⟩ := c35_key_value_pairs p
  rw [← yields_unique hy h]
  refine ⟨hl.symm, ?_⟩
  simp [KVP.isEmpty, ← hl]

/-- C34: extending an unmerged map appends the pairs. -/
theorem c34_extend_unmerged {K V N : Type} [DecidableEq N] (norm : K → N) (l es : List (K × V)) :
    Yields KVPIter.next KVPIter.sizeHint ((KVP.unmerged l).extend norm es).iter (l ++ es) := kvpIter_unmerged _

/-- Lookup under `q` after inserting `k ↦ v`. -/
theorem get_insert {K V N : Type} [DecidableEq N] (norm : K → N) (k : K) (v : V) (m : HashMap K V) (q : N) :
    HashMap.get norm q (HashMap.insert norm k v m) = if norm k = q then some v else HashMap.get norm q m := by
  induction m with
  | nil => simp [HashMap.insert, HashMap.get]
  | cons p m ih =>
    obtain ⟨k', v'⟩ := p
    by_cases hk : norm k' = norm k
    · by_cases hq : norm k = q <;> simp [HashMap.insert, HashMap.get, hk, hq]
    · by_cases hq : norm k = q
      · have : ¬ norm k' = q := fun h => hk (h.trans hq.symm)
        simp [HashMap.insert, HashMap.get, hq, this, ih]
      · simp only [HashMap.insert, if_neg hk, HashMap.get, ih, if_neg hq]

/-- C34: extending a merged map: for each key the last of the new values wins, other keys keep theirs. -/
theorem c34_extend_merged {K V N : Type} [DecidableEq N] (norm : K → N) (m : List (K × V)) (es : List (K × V)) (q : N) :
    ((KVP.merged m).extend norm es).getSingle norm q =
      ((valuesUnder norm q es).getLast?).or ((KVP.merged m).getSingle norm q) := by
  simp only [KVP.extend, KVP.getSingle]
  induction es generalizing m with
  | nil => simp [HashMap.extend, valuesUnder]
  | cons e es ih =>
    obtain ⟨k, v⟩ := e
    simp only [HashMap.extend]
    rw [ih, get_insert]
    by_cases hk : norm k = q
    · simp only [valuesUnder, if_pos hk]
      cases h : (valuesUnder norm q es).getLast? with
      | none => simp [List.getLast?_cons, h]
      | some w => simp [List.getLast?_cons, h]
    · simp [valuesUnder, if_neg hk]

example : (KVP.unmerged [(1, 'a'), (2, 'b'), (1, 'c')]).get id 1 = some (.many ['a', 'c']) := by decide
example : (KVP.merged [(1, 'a'), (2, 'b')]).get id 2 = some (.one 'b') := by decide
example : ((KVP.merged [(1, 'a'), (2, 'b')]).extend id [(2, 'x'), (3, 'y')]) = .merged [(1, 'a'), (2, 'x'), (3, 'y')] := by
  decide

/-! ## C36 -/

/-- C36: each typed accessor returns the payload exactly when the value is of that variant … -/
theorem c36_accessor_ok (v : Value) :
    (∀ i, v.getInteger = .ok i ↔ v = .integer i) ∧ (∀ f, v.getFloat = .ok f ↔ v = .float f) ∧
    (∀ b, v.getBoolean = .ok b ↔ v = .boolean b) ∧ (∀ s, v.getString = .ok s ↔ v = .string s) ∧
    (∀ l, v.getList = .ok l ↔ v = .list l) ∧ (∀ m, v.getMap = .ok m ↔ v = .object m) ∧
    (∀ b, v.getBlock = .ok b ↔ v = .block b) := by
  cases v <;>
    simp [Value.getInteger, Value.getFloat, Value.getBoolean, Value.getString, Value.getList, Value.getMap,
      Value.getBlock, Value.unexpected]

/-- … and otherwise the error `UnexpectedVariant` naming the expected and the actual variant. -/
theorem c36_accessor_error (v : Value) :
    (v.variant ≠ .integer → v.getInteger = .error (.unexpectedVariant .integer v.variant)) ∧
    (v.variant ≠ .float → v.getFloat = .error (.unexpectedVariant .float v.variant)) ∧
    (v.variant ≠ .boolean → v.getBoolean = .error (.unexpectedVariant .boolean v.variant)) ∧
    (v.variant ≠ .string → v.getString = .error (.unexpectedVariant .string v.variant)) ∧
    (v.variant ≠ .list → v.getList = .error (.unexpectedVariant .list v.variant)) ∧
    (v.variant ≠ .object → v.getMap = .error (.unexpectedVariant .object v.variant)) ∧
    (v.variant ≠ .block → v.getBlock = .error (.unexpectedVariant .block v.variant)) := by
  cases v <;>
    simp [Value.getInteger, Value.getFloat, Value.getBoolean, Value.getString, Value.getList, Value.getMap,
      Value.getBlock, Value.unexpected, Value.variant]

/-- C36: the `unwrap_*` accessors panic exactly when the accessor fails. -/
theorem c36_unwrap {α : Type} (r : Except ValueErr α) : unwrapR r = none ↔ ∃ e, r = .error e := by
  cases r <;> simp [unwrapR]

/-- C36: exactly one of the predicates `is_null` … `is_block` holds, the one of the value's variant. -/
theorem c36_predicates (v : Value) (x : Variant) : v.is x = true ↔ v.variant = x := by
  cases v <;> cases x <;> simp [Value.is, Value.variant]

/-- C36: `len` is 1 for a scalar, the number of elements of a list, maps of an object or entries of a block; it panics
exactly on Null. -/
theorem c36_len (v : Value) :
    (v.len = none ↔ v = .null) ∧ (v.isScalar = true → v.len = some 1) ∧ (∀ l, v = .list l → v.len = some l.length) ∧
    (∀ l, v = .object l → v.len = some l.length) ∧ (∀ b, v = .block b → v.len = some b.entries.length) := by
  cases v <;> simp [Value.len, Value.isScalar]
  rename_i b
  cases b <;> rfl

/-- C36: `is_empty` panics exactly on Null, and is true exactly of a list, object or block without elements. -/
theorem c36_is_empty (v : Value) :
    (v.isEmpty = none ↔ v = .null) ∧
    (v.isEmpty = some true ↔ v = .list [] ∨ v = .object [] ∨ v = .block (.merged []) ∨ v = .block (.unmerged [])) := by
  cases v with
  | block b => cases b <;> simp [Value.isEmpty, Value.len, Value.isScalar, KVP.len]
  | _ => simp [Value.isEmpty, Value.len, Value.isScalar]

example : (Value.list []).isEmpty = some true ∧ (Value.integer 0).isEmpty = some false := ⟨rfl, rfl⟩

example : (Value.list [.integer 3]).getInteger = .error (.unexpectedVariant .integer .list) := rfl
example : (Value.list [.integer 3, .null]).len = some 2 := rfl

/-- C36: scalars are the integers, floats, booleans and strings; all else, null included, counts as an aggregate. -/
theorem c36_scalar (v : Value) :
    (v.isScalar = true ↔ v.variant = .integer ∨ v.variant = .float ∨ v.variant = .boolean ∨ v.variant = .string) ∧
    (v.isAggregate = true ↔ v.variant = .null ∨ v.variant = .list ∨ v.variant = .object ∨ v.variant = .block) := by
  cases v <;> simp [Value.isScalar, Value.isAggregate, Value.variant]

/-- C35: `is_one`/`is_many` tell the two kinds apart; `unwrap_one` gives back exactly the single value and panics on many,
`unwrap_many` gives back exactly the list and panics on one. -/
theorem c35_one_or_many_unwrap {T : Type} (o : OneOrMany T) :
    (o.isOne = true ↔ ∃ v, o = .one v) ∧ (o.isMany = true ↔ ∃ vs, o = .many vs) ∧
    (∀ v, o.unwrapOne = some v ↔ o = .one v) ∧ (o.unwrapOne = none ↔ o.isMany = true) ∧
    (∀ vs, o.unwrapMany = some vs ↔ o = .many vs) ∧ (o.unwrapMany = none ↔ o.isOne = true) := by
  cases o <;> simp [OneOrMany.isOne, OneOrMany.isMany, OneOrMany.unwrapOne, OneOrMany.unwrapMany]

/-- C35: `unwrap_merged` gives back exactly the map of a merged value and panics on unmerged ones; `unwrap_unmerged` the
other way round. -/
theorem c35_key_value_pairs_unwrap {K V : Type} (p : KVP K V) :
    (∀ m, p.unwrapMerged = some m ↔ p = .merged m) ∧ (p.unwrapMerged = none ↔ ∃ l, p = .unmerged l) ∧
    (∀ l, p.unwrapUnmerged = some l ↔ p = .unmerged l) ∧ (p.unwrapUnmerged = none ↔ ∃ m, p = .merged m) := by
  cases p <;> simp [KVP.unwrapMerged, KVP.unwrapUnmerged]

end Verif.Props
