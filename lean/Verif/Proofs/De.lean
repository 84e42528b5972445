import Verif.Spec.De
import Verif.Proofs.BlocksTypes
/-! # Map accesses -/
set_option autoImplicit false

namespace Verif
open Spec

/-- the node of a value of a body -/
def BodyValue.node : BodyValue → Node
  | .expression e => .expr e
  | .block b => .block b

theorem body_nextKey_nil {α : Type} (seed : CowStr → Res DeErr α) (v : Option BodyValue) (seen : List Str) :
    BodyMapAccess.nextKey ⟨[], v, seen⟩ seed = (.ok none, ⟨[], v, seen⟩) := rfl

theorem body_nextKey_new {k : CowStr} {x : BodyValue} {l : List (CowStr × BodyValue)} {v : Option BodyValue}
    {seen : List Str} (h : k.str ∉ seen) :
    BodyMapAccess.nextKey ⟨(k, x) :: l, v, seen⟩ .ok = (.ok (some k), ⟨l, some x, k.str :: seen⟩) := by
  simp [BodyMapAccess.nextKey, h]

theorem body_nextValue {l : List (CowStr × BodyValue)} {x : BodyValue} {seen : List Str} :
    BodyMapAccess.nextValue ⟨l, some x, seen⟩ .ok = (.ok x.node, ⟨l, none, seen⟩) := by
  cases x <;> rfl

theorem drains_body {l : List (CowStr × BodyValue)} : ∀ {v : Option BodyValue} {seen : List Str},
    (l.map fun p => p.1.str).Nodup → (∀ p ∈ l, p.1.str ∉ seen) → ∀ {rest : List (CowStr × BodyValue)}
      {es : List (CowStr × Node)} {s : Stop},
    (∀ v' seen', (∀ t, t ∈ seen' ↔ t ∈ seen ∨ t ∈ l.map fun p => p.1.str) → Drains (.body ⟨rest, v', seen'⟩) es s) →
    Drains (.body ⟨l ++ rest, v, seen⟩) (l.map (fun p => (p.1, p.2.node)) ++ es) s := by
  induction l with
  | nil => intro v seen _ _ rest es s h; exact h v seen (by simp)
  | cons p l ih =>
    intro v seen hn hs rest es s h
    obtain ⟨k, x⟩ := p
    simp only [List.map_cons, List.nodup_cons] at hn
    have hk : k.str ∉ seen := hs (k, x) (by simp)
    refine .entry _ (.body ⟨l ++ rest, some x, k.str :: seen⟩) (.body ⟨l ++ rest, none, k.str :: seen⟩) k x.node _ _ ?_ ?_ ?_
    · simp only [MapAcc.nextKey, List.cons_append, body_nextKey_new hk]
    · simp only [MapAcc.nextValue, body_nextValue]
    · refine ih hn.2 ?_ ?_
      · intro p hp hc
        rcases List.mem_cons.1 hc with hc | hc
        · exact hn.1 (hc ▸ List.mem_map_of_mem hp)
        · exact hs p (by simp [hp]) hc
      · intro v' seen' hs'
        refine h v' seen' fun t => ?_
        rw [hs' t]; simp only [List.mem_cons, List.map_cons]
        constructor
        · rintro ((h | h) | h) <;> simp [h]
        · rintro (h | h | h) <;> simp [h]

theorem drains_body_done {l : List (CowStr × BodyValue)} (h : (l.map fun p => p.1.str).Nodup) :
    Drains (.body ⟨l, none, []⟩) (l.map fun p => (p.1, p.2.node)) .done := by
  have := drains_body (v := none) (seen := []) h (by simp) (rest := []) (es := []) (s := .done)
    (fun v' seen' _ => .done _ _ rfl)
  simpa using this

/-- how a repeated key ends it -/
def BodyValue.stop (k : CowStr) : BodyValue → Stop
  | .expression _ => .error (.bodyDuplicateKey k.str)
  | .block _ => .panicked

theorem drains_body_dup {pre post : List (CowStr × BodyValue)} {k : CowStr} {x : BodyValue}
    (h : (pre.map fun p => p.1.str).Nodup) (hk : k.str ∈ pre.map fun p => p.1.str) :
    Drains (.body ⟨pre ++ (k, x) :: post, none, []⟩) (pre.map fun p => (p.1, p.2.node)) (x.stop k) := by
  have := drains_body (v := none) (seen := []) h (by simp) (rest := (k, x) :: post) (es := []) (s := x.stop k)
    (fun v' seen' hs => by
      have hm : k.str ∈ seen' := (hs _).2 (.inr hk)
      cases x with
      | expression e =>
        exact .keyError _ (.body ⟨post, v', seen'⟩) _ (by simp [MapAcc.nextKey, BodyMapAccess.nextKey, hm])
      | block b => exact .keyPanic _ (.body ⟨post, v', seen'⟩) (by simp [MapAcc.nextKey, BodyMapAccess.nextKey, hm]))
  simpa using this

theorem drains_functional {a : MapAcc} {es es' : List (CowStr × Node)} {s s' : Stop} (h : Drains a es s)
    (h' : Drains a es' s') : es = es' ∧ s = s' := by
  induction h generalizing es' s' with
  | done a a1 h1 => cases h' <;> simp_all
  | keyError a a1 e h1 => cases h' <;> simp_all
  | keyPanic a a1 h1 => cases h' <;> simp_all
  | valueError a a1 a2 k e h1 h2 => cases h' <;> simp_all
  | valuePanic a a1 a2 k h1 h2 => cases h' <;> simp_all
  | entry a a1 a2 k n es s h1 h2 h3 ih =>
    cases h' with
    | entry =>
      rename_i b1 b2 k' n' es1 g2 g1 g3
      rw [h1] at g1; cases g1
      rw [h2] at g2; cases g2
      obtain ⟨rfl, rfl⟩ := ih g3
      exact ⟨rfl, rfl⟩
    | _ => simp_all

/-! ## objects -/

theorem drains_object {l : List (CowStr × Expr)} : ∀ {v : Option Expr} {seen : List Str},
    (l.map fun p => p.1.str).Nodup → (∀ p ∈ l, p.1.str ∉ seen) → ∀ {rest : List (ObjKey × Expr)}
      {es : List (CowStr × Node)} {s : Stop},
    (∀ v' seen', (∀ t, t ∈ seen' ↔ t ∈ seen ∨ t ∈ l.map fun p => p.1.str) → Drains (.object ⟨rest, v', seen'⟩) es s) →
    Drains (.object ⟨l.map (fun p => (ObjKey.ident p.1, p.2)) ++ rest, v, seen⟩)
      (l.map (fun p => (p.1, .expr p.2)) ++ es) s := by
  induction l with
  | nil => intro v seen _ _ rest es s h; exact h v seen (by simp)
  | cons p l ih =>
    intro v seen hn hs rest es s h
    obtain ⟨k, x⟩ := p
    simp only [List.map_cons, List.nodup_cons] at hn
    have hk : k.str ∉ seen := hs (k, x) (by simp)
    refine .entry _ (.object ⟨l.map (fun p => (ObjKey.ident p.1, p.2)) ++ rest, some x, k.str :: seen⟩)
      (.object ⟨l.map (fun p => (ObjKey.ident p.1, p.2)) ++ rest, none, k.str :: seen⟩) k (.expr x) _ _ ?_ ?_ ?_
    · simp [MapAcc.nextKey, ObjectMapAccess.nextKey, ObjKey.asStr, hk]
    · simp [MapAcc.nextValue, ObjectMapAccess.nextValue]
    · refine ih hn.2 ?_ ?_
      · intro p hp hc
        rcases List.mem_cons.1 hc with hc | hc
        · exact hn.1 (hc ▸ List.mem_map_of_mem hp)
        · exact hs p (by simp [hp]) hc
      · intro v' seen' hs'
        refine h v' seen' fun t => ?_
        rw [hs' t]; simp only [List.mem_cons, List.map_cons]
        constructor
        · rintro ((h | h) | h) <;> simp [h]
        · rintro (h | h | h) <;> simp [h]

theorem drains_object_done {l : List (CowStr × Expr)} (h : (l.map fun p => p.1.str).Nodup) :
    Drains (.object ⟨l.map (fun p => (ObjKey.ident p.1, p.2)), none, []⟩) (l.map fun p => (p.1, .expr p.2)) .done := by
  have := drains_object (v := none) (seen := []) h (by simp) (rest := []) (es := []) (s := .done)
    (fun v' seen' _ => .done _ _ rfl)
  simpa using this

theorem drains_object_dup {pre : List (CowStr × Expr)} {post : List (ObjKey × Expr)} {k : CowStr} {x : Expr}
    (h : (pre.map fun p => p.1.str).Nodup) (hk : k.str ∈ pre.map fun p => p.1.str) :
    Drains (.object ⟨pre.map (fun p => (ObjKey.ident p.1, p.2)) ++ (.ident k, x) :: post, none, []⟩)
      (pre.map fun p => (p.1, .expr p.2)) (.error (.objectDuplicateKey k.str)) := by
  have := drains_object (v := none) (seen := []) h (by simp) (rest := (.ident k, x) :: post) (es := [])
    (s := .error (.objectDuplicateKey k.str))
    (fun v' seen' hs => by
      have hm : k.str ∈ seen' := (hs _).2 (.inr hk)
      exact .keyError _ (.object ⟨post, v', seen'⟩) _
        (by simp [MapAcc.nextKey, ObjectMapAccess.nextKey, ObjKey.asStr, hm]))
  simpa using this

theorem drains_object_expr {pre : List (CowStr × Expr)} {post : List (ObjKey × Expr)} {k : CowStr} {x : Expr}
    (h : (pre.map fun p => p.1.str).Nodup) :
    Drains (.object ⟨pre.map (fun p => (ObjKey.ident p.1, p.2)) ++ (.expr k, x) :: post, none, []⟩)
      (pre.map fun p => (p.1, .expr p.2)) .panicked := by
  have := drains_object (v := none) (seen := []) h (by simp) (rest := (.expr k, x) :: post) (es := [])
    (s := .panicked)
    (fun v' seen' hs => by
      exact .keyPanic _ (.object ⟨post, v', seen'⟩)
        (by simp [MapAcc.nextKey, ObjectMapAccess.nextKey, ObjKey.asStr]))
  simpa using this

end Verif

namespace Verif
open Spec

/-! ## the blocks of a body -/

theorem hinsert_nodup {K V N : Type} [DecidableEq N] {norm : K → N} (k : K) (v : V) {m : HashMap K V}
    (h : (m.map fun p => norm p.1).Nodup) : ((HashMap.insert norm k v m).map fun p => norm p.1).Nodup := by
  have hmem : ∀ m : HashMap K V, ∀ q, q ∈ (HashMap.insert norm k v m).map (fun p => norm p.1) →
      q = norm k ∨ q ∈ m.map fun p => norm p.1 := by
    intro m q hq
    induction m with
    | nil => simpa [HashMap.insert] using hq
    | cons p m ih =>
      obtain ⟨k', v'⟩ := p
      simp only [HashMap.insert] at hq
      split at hq
      · simp only [List.map_cons, List.mem_cons] at hq ⊢
        exact .inr hq
      · simp only [List.map_cons, List.mem_cons] at hq ⊢
        rcases hq with hq | hq
        · exact .inr (.inl hq)
        · rcases ih hq with h | h
          · exact .inl h
          · exact .inr (.inr h)
  induction m with
  | nil => simp [HashMap.insert]
  | cons p m ih =>
    obtain ⟨k', v'⟩ := p
    simp only [List.map_cons, List.nodup_cons] at h
    simp only [HashMap.insert]
    split
    · simpa using h
    · rename_i hne
      simp only [List.map_cons, List.nodup_cons]
      refine ⟨fun hq => ?_, ih h.2⟩
      rcases hmem m _ hq with hq | hq
      · exact hne hq
      · exact h.1 hq

theorem new_nodup (bs : List Block) : ((Blocks.new bs).map fun p => p.1.str).Nodup := by
  have : ∀ (gs : List (CowStr × List Block)) (m : Blocks), (m.map fun p => p.1.str).Nodup →
      ((Blocks.insertGroups m gs).map fun p => p.1.str).Nodup := by
    intro gs
    induction gs with
    | nil => intro m h; exact h
    | cons g gs ih => intro m h; exact ih _ (hinsert_nodup _ _ h)
  exact this _ _ (by simp)

/-- the entries of `Blocks::new`: each type of the list once, with the last run of its blocks -/
theorem new_mem {bs : List Block} {p : CowStr × BlockBody} (hp : p ∈ Blocks.new bs) :
    ∃ run, LastRun p.1.str bs run ∧ p.2 = BlockBody.fromIter (run.map fun b => (b.labels, b.body)) := by
  have hg := get_of_mem (borrow := CowStr.str) hp (new_nodup bs)
  rcases new_get bs p.1.str with ⟨-, h⟩ | ⟨run, h1, h2⟩
  · rw [hg] at h; cases h
  · rw [hg] at h2; exact ⟨run, h1, by injection h2⟩

theorem new_mem_of_block {bs : List Block} {b : Block} (hb : b ∈ bs) : ∃ p ∈ Blocks.new bs, p.1.str = b.type.str := by
  rcases new_get bs b.type.str with ⟨h, -⟩ | ⟨run, -, h2⟩
  · exact absurd rfl (h b hb)
  · obtain ⟨k, hp, h3⟩ := get_some h2
    exact ⟨_, hp, h3⟩

theorem new_types {bs : List Block} {t : Str} :
    (t ∈ (Blocks.new bs).map fun p => p.1.str) ↔ ∃ b ∈ bs, b.type.str = t := by
  constructor
  · intro h
    obtain ⟨p, hp, rfl⟩ := List.mem_map.1 h
    obtain ⟨run, ⟨pre, post, rfl, h1, h2, -⟩, -⟩ := new_mem hp
    obtain ⟨b, hb⟩ := List.exists_mem_of_ne_nil _ h1
    exact ⟨b, by simp [hb], h2 b hb⟩
  · rintro ⟨b, hb, rfl⟩
    obtain ⟨p, hp, h⟩ := new_mem_of_block hb
    exact List.mem_map.2 ⟨p, hp, h⟩

end Verif

namespace Verif
open Spec

/-! ## any sequence of calls -/

/-- the value kept for `next_value` -/
def MapAcc.stored : MapAcc → Option Node
  | .object a => a.expression.map .expr
  | .body a => a.value.map BodyValue.node

/-- entries to come -/
def MapAcc.Has : MapAcc → CowStr → Node → Prop
  | .object a, k, n => ∃ e, (.ident k, e) ∈ a.iterator ∧ n = .expr e
  | .body a, k, n => ∃ v, (k, v) ∈ a.elements ∧ n = v.node

/-- keys given before -/
def MapAcc.given : MapAcc → List Str
  | .object a => a.seen
  | .body a => a.seen

theorem nextKey_cases (a : MapAcc) :
    (a.remaining = 0 ∧ a.nextKey .ok = (.ok none, a)) ∨
    (∃ k n a', a.nextKey .ok = (.ok (some k), a') ∧ a.Has k n ∧ a'.stored = some n ∧
      a.remaining = a'.remaining + 1 ∧ (∀ k n, a'.Has k n → a.Has k n) ∧ k.str ∉ a.given ∧ a'.given = k.str :: a.given) ∨
    (∃ r a', a.nextKey .ok = (r, a') ∧ ((∃ e, r = .error e) ∨ r = .panic) ∧ a'.stored = a.stored ∧
      a.remaining = a'.remaining + 1 ∧ (∀ k n, a'.Has k n → a.Has k n) ∧ a'.given = a.given) := by
  cases a with
  | object a =>
    obtain ⟨l, e, seen⟩ := a
    cases l with
    | nil => exact .inl ⟨rfl, rfl⟩
    | cons p l =>
      obtain ⟨k, v⟩ := p
      have hsub : ∀ k' n e' s', (MapAcc.object ⟨l, e', s'⟩).Has k' n → (MapAcc.object ⟨(k, v) :: l, e, seen⟩).Has k' n := by
        rintro k' n e' s' ⟨x, hx, h⟩; exact ⟨x, List.mem_cons_of_mem _ hx, h⟩
      cases k with
      | expr s =>
        exact .inr (.inr ⟨.panic, .object ⟨l, e, seen⟩, rfl, .inr rfl, rfl, rfl, fun k' n => hsub k' n _ _, rfl⟩)
      | ident s =>
        by_cases hs : s.str ∈ seen
        · exact .inr (.inr ⟨.error (.objectDuplicateKey s.str), .object ⟨l, e, seen⟩,
            by simp [MapAcc.nextKey, ObjectMapAccess.nextKey, ObjKey.asStr, hs], .inl ⟨_, rfl⟩, rfl, rfl,
            fun k' n => hsub k' n _ _, rfl⟩)
        · exact .inr (.inl ⟨s, .expr v, .object ⟨l, some v, s.str :: seen⟩,
            by simp [MapAcc.nextKey, ObjectMapAccess.nextKey, ObjKey.asStr, hs], ⟨v, by simp, rfl⟩, rfl, rfl,
            fun k' n => hsub k' n _ _, hs, rfl⟩)
  | body a =>
    obtain ⟨l, e, seen⟩ := a
    cases l with
    | nil => exact .inl ⟨rfl, rfl⟩
    | cons p l =>
      obtain ⟨k, v⟩ := p
      have hsub : ∀ k' n e' s', (MapAcc.body ⟨l, e', s'⟩).Has k' n → (MapAcc.body ⟨(k, v) :: l, e, seen⟩).Has k' n := by
        rintro k' n e' s' ⟨x, hx, h⟩; exact ⟨x, List.mem_cons_of_mem _ hx, h⟩
      by_cases hs : k.str ∈ seen
      · refine .inr (.inr ⟨match v with | .expression _ => .error (.bodyDuplicateKey k.str) | .block _ => .panic,
          .body ⟨l, e, seen⟩, ?_, ?_, rfl, rfl, fun k' n => hsub k' n _ _, rfl⟩)
        · cases v <;> simp [MapAcc.nextKey, BodyMapAccess.nextKey, hs]
        · cases v <;> simp
      · exact .inr (.inl ⟨k, v.node, .body ⟨l, some v, k.str :: seen⟩,
          by simp [MapAcc.nextKey, BodyMapAccess.nextKey, hs], ⟨v, by simp, rfl⟩, rfl, rfl,
            fun k' n => hsub k' n _ _, hs, rfl⟩)

theorem nextValue_cases (a : MapAcc) :
    (a.stored = none ∧ a.nextValue .ok = (.panic, a)) ∨
    (∃ n a', a.stored = some n ∧ a.nextValue .ok = (.ok n, a') ∧ a'.stored = none ∧ a'.remaining = a.remaining ∧
      (∀ k n, a'.Has k n → a.Has k n) ∧ a'.given = a.given) := by
  cases a with
  | object a =>
    obtain ⟨l, e, seen⟩ := a
    cases e with
    | none => exact .inl ⟨rfl, rfl⟩
    | some e => exact .inr ⟨.expr e, .object ⟨l, none, seen⟩, rfl, rfl, rfl, rfl, fun _ _ h => h, rfl⟩
  | body a =>
    obtain ⟨l, e, seen⟩ := a
    cases e with
    | none => exact .inl ⟨rfl, rfl⟩
    | some e =>
      refine .inr ⟨e.node, .body ⟨l, none, seen⟩, rfl, ?_, rfl, rfl, fun _ _ h => h, rfl⟩
      cases e <;> rfl

end Verif

namespace Verif
open Spec

theorem append_singleton_eq {α : Type} {l pre post : List α} {x y : α} (h : l ++ [x] = pre ++ y :: post) :
    (post = [] ∧ l = pre ∧ x = y) ∨ ∃ post', post = post' ++ [x] ∧ l = pre ++ y :: post' := by
  rcases List.eq_nil_or_concat post with rfl | ⟨post', z, rfl⟩
  · obtain ⟨h1, h2⟩ := List.append_inj' h rfl
    exact .inl ⟨rfl, h1, by simpa using h2⟩
  · rw [List.concat_eq_append] at *
    have h' : l ++ [x] = (pre ++ y :: post') ++ [z] := by simpa using h
    obtain ⟨h1, h2⟩ := List.append_inj' h' rfl
    simp only [List.cons.injEq, and_true] at h2
    subst h2
    exact .inr ⟨post', rfl, h1⟩

theorem pending_key {evs : List MapEvent} {k k' : CowStr} : Pending (evs ++ [.gaveKey k]) k' ↔ k' = k := by
  constructor
  · rintro ⟨pre, post, h, h1, h2⟩
    rcases append_singleton_eq h with ⟨-, -, h⟩ | ⟨post', rfl, -⟩
    · injection h with h; exact h.symm
    · exact absurd (by simp) (h2 k)
  · rintro rfl; exact ⟨evs, [], rfl, fun _ h => (by cases h), fun _ h => (by cases h)⟩

theorem pending_value {evs : List MapEvent} {ev : MapEvent} {k : CowStr}
    (hv : (∃ n, ev = .gaveValue n) ∨ (∃ e, ev = .valueError e) ∨ ev = .valuePanic) : ¬ Pending (evs ++ [ev]) k := by
  rintro ⟨pre, post, h, h1, h2⟩
  rcases append_singleton_eq h with ⟨-, -, rfl⟩ | ⟨post', rfl, -⟩
  · simp at hv
  · exact h1 ev (by simp) hv

theorem pending_other {evs : List MapEvent} {ev : MapEvent} {k : CowStr}
    (hv : ¬ ((∃ n, ev = .gaveValue n) ∨ (∃ e, ev = .valueError e) ∨ ev = .valuePanic)) (hk : ∀ k, ev ≠ .gaveKey k) :
    Pending (evs ++ [ev]) k ↔ Pending evs k := by
  constructor
  · rintro ⟨pre, post, h, h1, h2⟩
    rcases append_singleton_eq h with ⟨-, -, h'⟩ | ⟨post', rfl, h'⟩
    · exact absurd h' (hk k)
    · exact ⟨pre, post', h', fun e he => h1 e (by simp [he]), fun k' hk' => h2 k' (by simp [hk'])⟩
  · rintro ⟨pre, post, rfl, h1, h2⟩
    refine ⟨pre, post ++ [ev], by simp, fun e he => ?_, fun k' hk' => ?_⟩
    · rcases List.mem_append.1 he with he | he
      · exact h1 e he
      · rw [List.mem_singleton.1 he]; exact hv
    · rcases List.mem_append.1 hk' with he | he
      · exact h2 k' he
      · exact hk k' (List.mem_singleton.1 he).symm

theorem keysGiven_append (a b : List MapEvent) : keysGiven (a ++ b) = keysGiven a ++ keysGiven b := by
  induction a with
  | nil => rfl
  | cons e a ih => cases e <;> simp [keysGiven, ih]

/-- what holds after any calls -/
structure MapInv (E : CowStr → Node → Prop) (total : Nat) (a : MapAcc) (evs : List MapEvent) (keyCalls : Nat) : Prop where
  has : ∀ k n, a.Has k n → E k n
  none : a.stored = none → ∀ k, ¬ Pending evs k
  some : ∀ n, a.stored = some n → ∃ k, Pending evs k ∧ E k n
  count : a.remaining = total - keyCalls
  given : a.given.reverse = (keysGiven evs).map CowStr.str
  nodup : a.given.Nodup

theorem mapInv_key {E : CowStr → Node → Prop} {total : Nat} {a : MapAcc} {evs : List MapEvent} {c : Nat}
    (h : MapInv E total a evs c) :
    MapInv E total (a.nextKey .ok).2 (evs ++ [keyEvent (a.nextKey .ok).1]) (c + 1) := by
  have hc := h.count
  rcases nextKey_cases a with ⟨h1, h2⟩ | ⟨k, n, a', h1, h2, h3, h4, h5, h6, h7⟩ | ⟨r, a', h1, h2, h3, h4, h5, h6⟩
  · rw [h2]
    have hp : ∀ k, Pending (evs ++ [MapEvent.ended]) k ↔ Pending evs k := fun k => pending_other (by simp) (by simp)
    refine ⟨h.has, fun hs k => by rw [keyEvent, hp]; exact h.none hs k, fun n hn => ?_, by dsimp only; omega, ?_, h.nodup⟩
    · obtain ⟨k, h1, h2⟩ := h.some n hn
      exact ⟨k, (hp k).2 h1, h2⟩
    · simp [keyEvent, keysGiven_append, keysGiven, h.given]
  · rw [h1]
    refine ⟨fun k n hh => h.has k n (h5 k n hh), fun hs => (by dsimp only at hs; rw [h3] at hs; cases hs), fun n' hn => ?_, by dsimp only; omega, ?_, ?_⟩
    · dsimp only at hn; rw [h3] at hn; injection hn with hn; subst hn
      exact ⟨k, pending_key.2 rfl, h.has k n h2⟩
    · simp [keyEvent, keysGiven_append, keysGiven, h7, h.given]
    · dsimp only; rw [h7]; exact List.nodup_cons.2 ⟨h6, h.nodup⟩
  · rw [h1]
    have hev : ∃ ev, keyEvent r = ev ∧ ((∃ e, ev = .keyError e) ∨ ev = .keyPanic) := by
      rcases h2 with ⟨e, rfl⟩ | rfl
      · exact ⟨_, rfl, .inl ⟨e, rfl⟩⟩
      · exact ⟨_, rfl, .inr rfl⟩
    obtain ⟨ev, hev, hev'⟩ := hev
    have hp : ∀ k, Pending (evs ++ [ev]) k ↔ Pending evs k := fun k =>
      pending_other (by rcases hev' with ⟨e, rfl⟩ | rfl <;> simp) (by rcases hev' with ⟨e, rfl⟩ | rfl <;> simp)
    dsimp only; rw [hev]
    refine ⟨fun k n hh => h.has k n (h5 k n hh), fun hs k => by rw [hp]; exact h.none (h3 ▸ hs) k, fun n hn => ?_, by omega, ?_, h6 ▸ h.nodup⟩
    · obtain ⟨k, h1, h2⟩ := h.some n (h3 ▸ hn)
      exact ⟨k, (hp k).2 h1, h2⟩
    · rw [h6, h.given, keysGiven_append]
      rcases hev' with ⟨e, rfl⟩ | rfl <;> simp [keysGiven]

theorem mapInv_value {E : CowStr → Node → Prop} {total : Nat} {a : MapAcc} {evs : List MapEvent} {c : Nat}
    (h : MapInv E total a evs c) :
    MapInv E total (a.nextValue .ok).2 (evs ++ [valueEvent (a.nextValue .ok).1]) c := by
  have hc := h.count
  rcases nextValue_cases a with ⟨h1, h2⟩ | ⟨n, a', h1, h2, h3, h4, h5, h6⟩
  · rw [h2]
    refine ⟨h.has, fun hs k => pending_value (.inr (.inr rfl)), fun n hn => ?_, hc, ?_, h.nodup⟩
    · dsimp only at hn; rw [h1] at hn; cases hn
    · simp [valueEvent, keysGiven_append, keysGiven, h.given]
  · rw [h2]
    refine ⟨fun k n hh => h.has k n (h5 k n hh), fun hs k => pending_value (.inl ⟨n, rfl⟩), fun n hn => ?_, by dsimp only; omega, ?_, ?_⟩
    · dsimp only at hn; rw [h3] at hn; cases hn
    · simp [valueEvent, keysGiven_append, keysGiven, h6, h.given]
    · dsimp only; rw [h6]; exact h.nodup

theorem mapInv_run {E : CowStr → Node → Prop} {total : Nat} (ops : List MapOp) : ∀ {a : MapAcc} {evs : List MapEvent} {c : Nat},
    MapInv E total a evs c → MapInv E total (afterOps a ops) (evs ++ runOps a ops) (c + ops.count .key) := by
  induction ops with
  | nil => intro a evs c h; simpa [afterOps, runOps] using h
  | cons op ops ih =>
    intro a evs c h
    cases op with
    | key =>
      have := ih (mapInv_key h)
      simpa [afterOps, runOps, Nat.add_assoc, Nat.add_comm 1] using this
    | value =>
      have := ih (mapInv_value h)
      simpa [afterOps, runOps] using this

theorem mapInv_object (o : List (ObjKey × Expr)) :
    MapInv (fun k n => ∃ e, (ObjKey.ident k, e) ∈ o ∧ n = .expr e) o.length (.object (.new o)) [] 0 :=
  ⟨fun _ _ h => h, fun _ k ⟨pre, post, h, _⟩ => (by cases pre <;> cases h), fun n h => (by cases h), rfl, rfl, .nil⟩

theorem mapInv_body (ord : HashOrder) (b : Body) :
    MapInv (fun k n => ∃ v, (k, v) ∈ mapAccessIter ord b ∧ n = v.node) (mapAccessIter ord b).length
      (.body (.new ord b)) [] 0 :=
  ⟨fun _ _ h => h, fun _ k ⟨pre, post, h, _⟩ => (by cases pre <;> cases h), fun n h => (by cases h), rfl, rfl, .nil⟩

theorem runOps_append (ops ops' : List MapOp) : ∀ a : MapAcc,
    runOps a (ops ++ ops') = runOps a ops ++ runOps (afterOps a ops) ops' := by
  induction ops with
  | nil => intro a; rfl
  | cons op ops ih => intro a; cases op <;> simp [runOps, afterOps, ih]

end Verif

namespace Verif
open Spec

theorem attributesOf_eq (b : Body) : attributesOf b = attrs b := by
  induction b with
  | nil => rfl
  | cons x b ih => cases x <;> simp [attributesOf, attrs, ih]

theorem blocksOf_eq (b : Body) : blocksOf b = blocks b := by
  induction b with
  | nil => rfl
  | cons x b ih => cases x <;> simp [blocksOf, blocks, ih]

theorem exists_first_dup {α : Type} (l : List (CowStr × α)) : ¬ Distinct l →
    ∃ pre k x post, l = pre ++ (k, x) :: post ∧ Distinct pre ∧ k.str ∈ pre.map fun p => p.1.str := by
  have : ∀ (l pre : List (CowStr × α)), Distinct pre → ¬ Distinct (pre ++ l) →
      ∃ pre' k x post, pre ++ l = pre' ++ (k, x) :: post ∧ Distinct pre' ∧ k.str ∈ pre'.map fun p => p.1.str := by
    intro l
    induction l with
    | nil => intro pre h1 h2; simp only [List.append_nil] at h2; exact absurd h1 h2
    | cons p l ih =>
      intro pre h1 h2
      obtain ⟨k, x⟩ := p
      by_cases hk : k.str ∈ pre.map fun p => p.1.str
      · exact ⟨pre, k, x, l, rfl, h1, hk⟩
      · have h1' : Distinct (pre ++ [(k, x)]) := by
          unfold Distinct at h1 ⊢
          rw [List.map_append, List.nodup_append]
          refine ⟨h1, by simp, fun a ha b hb => ?_⟩
          simp only [List.map_cons, List.map_nil, List.mem_singleton] at hb
          subst hb
          rintro rfl; exact hk ha
        have := ih (pre ++ [(k, x)]) h1' (by simpa using h2)
        simpa using this
  intro h
  exact this l [] List.nodup_nil h

end Verif
