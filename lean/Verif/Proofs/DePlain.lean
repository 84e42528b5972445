import Verif.Proofs.DeValues
import Verif.Props.De
/-! # Deserialization: bodies that cannot panic; structs and maps; hash order -/
set_option autoImplicit false

namespace Verif
open Spec

/-- nodes that cannot panic -/
def PlainNode : Node → Prop
  | .expr e => PlainExpr e
  | .body b => PlainBody b
  | .block c => ∃ bs, c = .body bs ∧ ∀ b ∈ bs, PlainBody b
  | .key _ => True

theorem fromIter_unlabelled {run : List Block} (h : ∀ q ∈ run, q.labels = []) :
    BlockBody.fromIter (run.map fun q => (q.labels, q.body)) = .body (run.map Block.body) := by
  have : ∀ (run : List Block) (pre : List Body), (∀ q ∈ run, q.labels = []) →
      BlockBody.extend (.body pre) (run.map fun q => (q.labels, q.body)) = .body (pre ++ run.map Block.body) := by
    intro run
    induction run with
    | nil => intro pre _; simp [BlockBody.extend]
    | cons q run ih =>
      intro pre h
      simp only [List.map_cons, BlockBody.extend, h q (by simp), BlockBody.append]
      rw [ih _ fun q hq => h q (by simp [hq])]
      simp
  exact this run [] h

theorem plain_body_child {ord : HashOrder} {b : Body} (h : PlainBody b) {k : CowStr} {n : Node}
    (hk : (MapAcc.body (.new ord b)).Has k n) : PlainNode n := by
  obtain ⟨_, h1, h2, h3, -⟩ := h
  obtain ⟨v, hv, rfl⟩ := hk
  simp only [BodyMapAccess.new, mapAccessIter, attributesOf_eq, blocksOf_eq, List.mem_append, List.mem_map] at hv
  rcases hv with ⟨p, hp, h⟩ | ⟨p, hp, h⟩
  · cases h; exact h1 p hp
  · cases h
    obtain ⟨run, ⟨pre, post, he, -⟩, hr⟩ := new_mem ((ord.perm _).mem_iff.1 hp)
    refine ⟨run.map Block.body, ?_, fun x hx => ?_⟩
    · rw [hr, fromIter_unlabelled fun q hq => h2 q (by rw [he]; simp [hq])]
    · obtain ⟨q, hq, rfl⟩ := List.mem_map.1 hx
      exact h3 q (by rw [he]; simp [hq])

theorem plain_any_child {P : F64Parse} {e : Expr} {c : Call} (hp : PlainExpr e) (h : e.deserializeAny P = .ok c) :
    (∀ m, c.child m → PlainNode m) ∧ ∀ a es, c.access = some a → ¬ Drains a es .panicked := by
  cases e with
  | null => cases h; exact ⟨fun _ h => h.elim, fun _ _ h => (by cases h)⟩
  | boolean b => cases h; exact ⟨fun _ h => h.elim, fun _ _ h => (by cases h)⟩
  | string s =>
    simp only [Expr.deserializeAny, deserializeString, Res.ok.injEq] at h
    subst h
    split <;> exact ⟨fun _ h => h.elim, fun _ _ h => (by cases h)⟩
  | number n =>
    simp only [Expr.deserializeAny, deserializeNumber] at h
    repeat' split at h
    all_goals first
      | (cases h; exact ⟨fun _ h => h.elim, fun _ _ h => (by cases h)⟩)
      | cases h
  | tuple es =>
    cases h
    refine ⟨fun m hm => ?_, fun _ _ h => (by cases h)⟩
    obtain ⟨e, he, rfl⟩ := List.mem_map.1 hm
    cases hp with
    | tuple _ hp => exact hp e he
  | object o =>
    cases h
    cases hp with
    | object _ h1 h2 =>
      refine ⟨fun m hm => ?_, fun a es ha hD => ?_⟩
      · obtain ⟨k, e, he, rfl⟩ := hm
        exact h2 _ he
      · injection ha with ha; subst ha
        rcases Props.c46_complete o with ⟨l, rfl, hd⟩ | ⟨pre, k, e, post, rfl, hd, hk⟩ | ⟨pre, k, e, post, rfl, hd⟩
        · have := (drains_functional hD (Props.c46_entries l hd)).2
          cases this
        · have := (drains_functional hD (Props.c46_duplicate pre k e post hd hk)).2
          cases this
        · obtain ⟨k', hk'⟩ := h1 (.expr k, e) (by simp)
          cases hk'

theorem plain_body_drain {ord : HashOrder} {b : Body} (h : PlainBody b) (es : List (CowStr × Node)) :
    ¬ Drains (.body (.new ord b)) es .panicked := by
  intro hD
  cases h with
  | mk _ _ _ _ hc => exact hc ((Props.c45_clash_panics ord b).1.1 ⟨es, hD⟩).2

theorem plain_not_panic {P : F64Parse} {I : F64OfInt} {ord : HashOrder} (t : Ty) {n : Node} (hn : PlainNode n) :
    deserialize P I ord t n ≠ .panic := by
  have hblk : ∀ (bs : List Body) (h : Hint) (c : Call), (BlockBody.body bs).deserialize ord h = .ok c →
      c = .none ∨ c = .some (.block (.body bs)) ∨ (∃ b ∈ bs, c = .mapBody (.new ord b)) ∨ c = .seq (bs.map .body) := by
    intro bs h c hc
    have hany : (BlockBody.body bs).deserializeAny ord = .ok c →
        c = .none ∨ c = .some (.block (.body bs)) ∨ (∃ b ∈ bs, c = .mapBody (.new ord b)) ∨ c = .seq (bs.map .body) := by
      intro hc'
      unfold BlockBody.deserializeAny at hc'
      split at hc'
      · rename_i heq
        injection heq with heq; subst heq
        cases hc'; exact .inr (.inr (.inl ⟨_, by simp, rfl⟩))
      · rename_i heq
        injection heq with heq; subst heq
        cases hc'; exact .inr (.inr (.inr rfl))
      · rename_i heq; cases heq
    simp only [BlockBody.deserialize] at hc
    cases h with
    | option =>
      dsimp only at hc
      split at hc
      · cases hc; exact .inl rfl
      · cases hc; exact .inr (.inl rfl)
    | seq => cases hc; exact .inr (.inr (.inr rfl))
    | _ => exact hany hc
  refine deserialize_not_abort (k := true) (Safe := PlainNode) ?_ ?_ ?_ _ t n (Nat.lt_succ_self _) hn
  · intro n h hs hh
    cases n with
    | expr e => exact expr_not_abort hh
    | body b => cases hh
    | key s =>
      simp only [Node.deserialize, keyDeserialize] at hh
      split at hh <;> cases hh
    | block c =>
      obtain ⟨bs, rfl, -⟩ := hs
      have hh : (BlockBody.body bs).deserialize ord h = .panic := hh
      unfold BlockBody.deserialize at hh
      have hany : (BlockBody.body bs).deserializeAny ord ≠ .panic := by
        intro h
        unfold BlockBody.deserializeAny at h
        split at h
        · cases h
        · cases h
        · rename_i heq; cases heq
      cases h with
      | option => dsimp only at hh; split at hh <;> cases hh
      | seq => cases hh
      | _ => exact hany hh
  · intro n h c hs hc m hm
    cases n with
    | expr e =>
      have hs : PlainExpr e := hs
      have hc : e.deserialize P h = .ok c := hc
      have htup : ∀ l, (match e with | .tuple es => deserializeTuple es (some l) | other => other.deserializeAny P) = .ok c → PlainNode m := by
        intro l hl
        split at hl
        · rename_i es
          simp only [deserializeTuple] at hl
          split at hl
          · cases hl
          · exact (plain_any_child (P := P) (e := .tuple _) hs hl).1 m hm
        · exact (plain_any_child hs hl).1 m hm
      unfold Expr.deserialize at hc
      cases h with
      | option => dsimp only at hc; split at hc <;> cases hc <;> exact hm.elim
      | newtypeStruct => cases hc; exact hm.elim
      | tuple l => exact htup l hc
      | tupleStruct l => exact htup l hc
      | _ => exact (plain_any_child hs hc).1 m hm
    | body b =>
      cases hc
      obtain ⟨k, hk⟩ := hm
      exact plain_body_child hs hk
    | key s =>
      simp only [Node.deserialize, keyDeserialize] at hc
      split at hc
      · cases hc; exact hm.elim
      · rw [Res.ok.injEq] at hc
        subst hc
        split at hm <;> exact hm.elim
    | block c' =>
      obtain ⟨bs, rfl, hp⟩ := hs
      rcases hblk bs h c hc with rfl | rfl | ⟨b, hb, rfl⟩ | rfl
      · exact hm.elim
      · exact hm.elim
      · obtain ⟨k, hk⟩ := hm
        exact plain_body_child (hp b hb) hk
      · obtain ⟨b, hb, rfl⟩ := List.mem_map.1 hm
        exact hp b hb
  · intro n h c hs hc _ a es ha hD
    cases n with
    | expr e =>
      have hs : PlainExpr e := hs
      have hc : e.deserialize P h = .ok c := hc
      have htup : ∀ l, (match e with | .tuple es => deserializeTuple es (some l) | other => other.deserializeAny P) = .ok c → False := by
        intro l hl
        split at hl
        · rename_i es'
          simp only [deserializeTuple] at hl
          split at hl
          · cases hl
          · exact (plain_any_child (P := P) (e := .tuple _) hs hl).2 a es ha hD
        · exact (plain_any_child hs hl).2 a es ha hD
      unfold Expr.deserialize at hc
      cases h with
      | option => dsimp only at hc; split at hc <;> cases hc <;> cases ha
      | newtypeStruct => cases hc; cases ha
      | tuple l => exact htup l hc
      | tupleStruct l => exact htup l hc
      | _ => exact (plain_any_child hs hc).2 a es ha hD
    | body b =>
      cases hc
      injection ha with ha; subst ha
      exact plain_body_drain hs es hD
    | key s =>
      simp only [Node.deserialize, keyDeserialize] at hc
      split at hc
      · cases hc; cases ha
      · rw [Res.ok.injEq] at hc
        subst hc
        split at ha <;> cases ha
    | block c' =>
      obtain ⟨bs, rfl, hp⟩ := hs
      rcases hblk bs h c hc with rfl | rfl | ⟨b, hb, rfl⟩ | rfl
      · cases ha
      · cases ha
      · injection ha with ha; subst ha
        exact plain_body_drain (hp b hb) es hD
      · cases ha

end Verif
