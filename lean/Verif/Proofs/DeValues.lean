import Verif.Proofs.DeTypes
/-! # Deserialization into types: results -/
set_option autoImplicit false

namespace Verif
open Spec

theorem bind_ok {ε α β : Type} {x : Res ε α} {f : α → Res ε β} {w : β} :
    x.bind f = .ok w ↔ ∃ v, x = .ok v ∧ f v = .ok w := by
  cases x <;> simp [Res.bind]

theorem map_ok {ε α β : Type} {x : Res ε α} {f : α → β} {w : β} : x.map f = .ok w ↔ ∃ v, x = .ok v ∧ f v = w := by
  cases x <;> simp [Res.map, Res.bind]

/-! ## panics and divergence come from below -/

/-- panic (`true`) or divergence (`false`) -/
def abort {ε α : Type} : Bool → Res ε α
  | true => .panic
  | false => .diverge

theorem bind_abort {ε α β : Type} {x : Res ε α} {f : α → Res ε β} {k : Bool} (h : x.bind f = abort k) :
    x = abort k ∨ ∃ v, x = .ok v ∧ f v = abort k := by
  cases x <;> cases k <;> simp_all [Res.bind, abort]

theorem map_abort {ε α β : Type} {x : Res ε α} {f : α → β} {k : Bool} (h : x.map f = abort k) : x = abort k := by
  cases x <;> cases k <;> simp_all [Res.bind, Res.map, abort]

theorem deAll_abort {f : Node → Res DeErr DVal} {ns : List Node} {k : Bool} (h : deAll f ns = abort k) :
    ∃ n ∈ ns, f n = abort k := by
  induction ns with
  | nil => cases k <;> cases h
  | cons n ns ih =>
    rcases bind_abort h with h | ⟨v, -, h⟩
    · exact ⟨n, by simp, h⟩
    · obtain ⟨m, hm, h⟩ := ih (map_abort h)
      exact ⟨m, by simp [hm], h⟩

theorem deFields_abort {f : Ty → Node → Res DeErr DVal} {k : Bool} : ∀ {ts : List Ty} {ns : List Node},
    deFields f ts ns = abort k → ∃ t ∈ ts, ∃ n ∈ ns, f t n = abort k
  | [], _, h => by cases k <;> cases h
  | _ :: _, [], h => by cases k <;> cases h
  | t :: ts, n :: ns, h => by
    rcases bind_abort h with h | ⟨v, -, h⟩
    · exact ⟨t, by simp, n, by simp, h⟩
    · obtain ⟨t', ht, m, hm, h⟩ := deFields_abort (map_abort h)
      exact ⟨t', by simp [ht], m, by simp [hm], h⟩

theorem runEntries_abort {f : Str → Node → Res DeErr DVal} {es : List (CowStr × Node)} {s : Stop} {k : Bool}
    (h : runEntries f es s = abort k) : (∃ p ∈ es, f p.1.str p.2 = abort k) ∨ (k = true ∧ s = .panicked) := by
  induction es with
  | nil => cases s <;> cases k <;> simp_all [runEntries, abort]
  | cons p es ih =>
    obtain ⟨key, n⟩ := p
    rcases bind_abort h with h | ⟨v, -, h⟩
    · exact .inl ⟨(key, n), by simp, h⟩
    · rcases ih (map_abort h) with ⟨m, hm, h⟩ | h
      · exact .inl ⟨m, by simp [hm], h⟩
      · exact .inr h

theorem entryLoop_abort {f : Str → Node → Res DeErr DVal} {a : MapAcc} {k : Bool}
    (h : entryLoop f (a.remaining + 1) a = abort k) :
    (∃ key n, a.Has key n ∧ f key.str n = abort k) ∨ (k = true ∧ ∃ es, Drains a es .panicked) := by
  obtain ⟨es, s, hD, hes⟩ := drains_exists a
  rw [entryLoop_eq hD (Nat.lt_succ_self _)] at h
  rcases runEntries_abort h with ⟨p, hp, h⟩ | ⟨hk, hs⟩
  · exact .inl ⟨p.1, p.2, hes p hp, h⟩
  · exact .inr ⟨hk, es, hs ▸ hD⟩

theorem structFields_abort {found : List (Str × DVal)} {fs : List (Str × Ty)} {k : Bool} :
    structFields found fs ≠ abort k := by
  induction fs with
  | nil => cases k <;> simp [structFields, abort]
  | cons p fs ih =>
    obtain ⟨n, t⟩ := p
    intro h
    simp only [structFields] at h
    split at h
    · exact ih (map_abort h)
    · exact ih (map_abort h)
    · cases k <;> cases h

/-- the map access of a map call -/
def Call.access : Call → Option MapAcc
  | .mapObject a => Option.some (MapAcc.object a)
  | .mapBody a => Option.some (MapAcc.body a)
  | _ => Option.none

theorem visit_abort {I : F64OfInt} {f : Ty → Node → Res DeErr DVal} {t : Ty} {c : Call} {k : Bool}
    (h : visit I f t c = abort k) :
    (∃ t' n, c.child n ∧ sizeOf t' ≤ sizeOf t ∧ f t' n = abort k) ∨
    (∃ t' n, c.wraps n ∧ (sizeOf t' < sizeOf t ∨ t = .ignored) ∧ f t' n = abort k) ∨
    (k = true ∧ ∃ a es, c.access = some a ∧ Drains a es .panicked) := by
  have hmap : ∀ (t' : Ty) (a : MapAcc), (∀ k n, a.Has k n → c.child n) → c.access = some a → sizeOf t' ≤ sizeOf t →
      entryLoop (fun _ => f t') (a.remaining + 1) a = abort k →
      (∃ t' n, c.child n ∧ sizeOf t' ≤ sizeOf t ∧ f t' n = abort k) ∨
      (∃ t' n, c.wraps n ∧ (sizeOf t' < sizeOf t ∨ t = .ignored) ∧ f t' n = abort k) ∨
      (k = true ∧ ∃ a es, c.access = some a ∧ Drains a es .panicked) := by
    intro t' a ha hac ht h
    rcases entryLoop_abort h with ⟨key, n, h1, h2⟩ | ⟨hk, es, hD⟩
    · exact .inl ⟨t', n, ha _ _ h1, ht, h2⟩
    · exact .inr (.inr ⟨hk, a, es, hac, hD⟩)
  have hstruct : ∀ (fs : List (Str × Ty)) (a : MapAcc), t = .struct fs → (∀ k n, a.Has k n → c.child n) →
      c.access = some a →
      entryLoop (fun k => f ((field? k fs).getD .ignored)) (a.remaining + 1) a = abort k →
      (∃ t' n, c.child n ∧ sizeOf t' ≤ sizeOf t ∧ f t' n = abort k) ∨
      (∃ t' n, c.wraps n ∧ (sizeOf t' < sizeOf t ∨ t = .ignored) ∧ f t' n = abort k) ∨
      (k = true ∧ ∃ a es, c.access = some a ∧ Drains a es .panicked) := by
    intro fs a ht ha hac h
    rcases entryLoop_abort h with ⟨key, n, h1, h2⟩ | ⟨hk, es, hD⟩
    · exact .inl ⟨_, n, ha _ _ h1, ht ▸ sizeOf_field, h2⟩
    · exact .inr (.inr ⟨hk, a, es, hac, hD⟩)
  have hleaf : ∀ {r : Res DeErr DVal}, (∃ v, r = .ok v) ∨ r = .error .custom → r ≠ abort k := by
    rintro r (⟨v, rfl⟩ | rfl) <;> cases k <;> simp [abort]
  cases t with
  | option t =>
    cases c <;> first | exact absurd h (hleaf (.inl ⟨_, rfl⟩)) | exact absurd h (hleaf (.inr rfl)) | skip
    exact .inr (.inl ⟨t, _, rfl, .inl (by simp), map_abort h⟩)
  | seq t =>
    cases c <;> first | exact absurd h (hleaf (.inl ⟨_, rfl⟩)) | exact absurd h (hleaf (.inr rfl)) | skip
    obtain ⟨n, hn, h⟩ := deAll_abort (map_abort h)
    exact .inl ⟨t, n, hn, by simp, h⟩
  | tuple ts =>
    cases c <;> first | exact absurd h (hleaf (.inl ⟨_, rfl⟩)) | exact absurd h (hleaf (.inr rfl)) | skip
    obtain ⟨t', ht, n, hn, h⟩ := deFields_abort (map_abort h)
    refine .inl ⟨t', n, hn, ?_, h⟩
    have := List.sizeOf_lt_of_mem ht
    simp only [Ty.tuple.sizeOf_spec]; omega
  | tupleStruct ts =>
    cases c <;> first | exact absurd h (hleaf (.inl ⟨_, rfl⟩)) | exact absurd h (hleaf (.inr rfl)) | skip
    obtain ⟨t', ht, n, hn, h⟩ := deFields_abort (map_abort h)
    refine .inl ⟨t', n, hn, ?_, h⟩
    have := List.sizeOf_lt_of_mem ht
    simp only [Ty.tupleStruct.sizeOf_spec]; omega
  | enum vs =>
    cases c <;> first | exact absurd h (hleaf (.inl ⟨_, rfl⟩)) | exact absurd h (hleaf (.inr rfl)) | skip
    simp only [visit, visitVariant] at h
    split at h
    · exact absurd h (hleaf (.inl ⟨_, rfl⟩))
    · exact absurd h (hleaf (.inr rfl))
  | map t =>
    cases c <;> first | exact absurd h (hleaf (.inl ⟨_, rfl⟩)) | exact absurd h (hleaf (.inr rfl)) | skip
    all_goals exact hmap t _ (fun k n hk => ⟨k, hk⟩) rfl (by simp) (map_abort h)
  | struct fs =>
    cases c <;> first | exact absurd h (hleaf (.inl ⟨_, rfl⟩)) | exact absurd h (hleaf (.inr rfl)) | skip
    case seq ns =>
      obtain ⟨t', ht, n, hn, h⟩ := deFields_abort (map_abort h)
      refine .inl ⟨t', n, hn, ?_, h⟩
      obtain ⟨p, hp, rfl⟩ := List.mem_map.1 ht
      have := List.sizeOf_lt_of_mem hp
      have hp2 : sizeOf p.2 < sizeOf p := by cases p; simp; omega
      simp only [Ty.struct.sizeOf_spec]; omega
    all_goals
      rcases bind_abort h with h | ⟨v, -, h⟩
      · exact hstruct fs _ rfl (fun k n hk => ⟨k, hk⟩) rfl h
      · exact absurd (map_abort h) structFields_abort
  | newtype t =>
    cases c <;> first | exact absurd h (hleaf (.inl ⟨_, rfl⟩)) | exact absurd h (hleaf (.inr rfl)) | skip
    case newtype n => exact .inr (.inl ⟨t, n, rfl, .inl (by simp), h⟩)
    case seq ns =>
      cases ns with
      | nil => exact absurd h (hleaf (.inr rfl))
      | cons n ns => exact .inl ⟨t, n, by simp [Call.child], by simp, h⟩
  | ignored =>
    cases c <;> first | exact absurd h (hleaf (.inl ⟨_, rfl⟩)) | exact absurd h (hleaf (.inr rfl)) | skip
    case some n => exact .inr (.inl ⟨.ignored, n, rfl, .inr rfl, h⟩)
    case newtype n => exact .inr (.inl ⟨.ignored, n, rfl, .inr rfl, h⟩)
    case seq ns =>
      obtain ⟨n, hn, h⟩ := deAll_abort (map_abort h)
      exact .inl ⟨.ignored, n, hn, by simp, h⟩
    all_goals exact hmap .ignored _ (fun k n hk => ⟨k, hk⟩) rfl (by simp) (map_abort h)
  | any =>
    cases c <;> first | exact absurd h (hleaf (.inl ⟨_, rfl⟩)) | exact absurd h (hleaf (.inr rfl)) | skip
    case seq ns =>
      obtain ⟨n, hn, h⟩ := deAll_abort (map_abort h)
      exact .inl ⟨.any, n, hn, by simp, h⟩
    all_goals exact hmap .any _ (fun k n hk => ⟨k, hk⟩) rfl (by simp) (map_abort h)
  | bytes u =>
    cases c <;> first | exact absurd h (hleaf (.inl ⟨_, rfl⟩)) | exact absurd h (hleaf (.inr rfl)) | skip
    case seq ns =>
      obtain ⟨n, hn, h⟩ := deAll_abort (map_abort h)
      exact .inl ⟨.int u.ty, n, hn, sizeOf_u8 u, h⟩
  | char =>
    have : ∀ s : Str, (match (generalizing := false) s with | [c] => Res.ok (DVal.char c) | _ => .error DeErr.custom) ≠ abort k := by
      intro s
      split <;> cases k <;> simp [abort]
    cases c <;> first | exact absurd h (hleaf (.inr rfl)) | skip
    all_goals
      rename_i s
      refine absurd ?_ (this s)
      rw [← h]
      cases s with
      | nil => rfl
      | cons c s => cases s <;> rfl
  | int T =>
    cases c <;> first | exact absurd h (hleaf (.inr rfl)) | skip
    all_goals
      simp only [visit] at h
      split at h
      · exact absurd h (hleaf (.inl ⟨_, rfl⟩))
      · exact absurd h (hleaf (.inr rfl))
  | _ => cases c <;> first | exact absurd h (hleaf (.inl ⟨_, rfl⟩)) | exact absurd h (hleaf (.inr rfl))

/-- a node from which no panic (or divergence) can come: closed under parts -/
theorem deserialize_not_abort {P : F64Parse} {I : F64OfInt} {ord : HashOrder} {k : Bool} {Safe : Node → Prop}
    (h1 : ∀ n h, Safe n → n.deserialize P ord h ≠ abort k)
    (h2 : ∀ n h c, Safe n → n.deserialize P ord h = .ok c → ∀ m, c.child m → Safe m)
    (h3 : ∀ n h c, Safe n → n.deserialize P ord h = .ok c → k = true → ∀ a es, c.access = some a → ¬ Drains a es .panicked) :
    ∀ (N : Nat) (t : Ty) (n : Node), sizeOf t + n.measure < N → Safe n → deserialize P I ord t n ≠ abort k := by
  intro N
  induction N with
  | zero => intros; omega
  | succ N ih =>
    intro t n hN hs h
    rw [deserialize_eq] at h
    rcases bind_abort h with h | ⟨c, hc, h⟩
    · exact h1 n _ hs h
    · obtain ⟨i1, i2⟩ := deserialize_child hc
      rcases visit_abort h with ⟨t', m, hm, ht, h'⟩ | ⟨t', m, hm, ht, h'⟩ | ⟨hk, a, es, ha, hD⟩
      · have := i1 m hm
        exact ih t' m (by omega) (h2 n _ c hs hc m hm) h'
      · obtain ⟨rfl, hh⟩ := i2 m hm
        rcases ht with ht | rfl
        · exact ih t' m (by omega) hs h'
        · rcases hh with h | h <;> cases h
      · exact h3 n _ c hs hc hk a es ha hD

theorem number_not_abort {P : F64Parse} {n : Number} {k : Bool} : deserializeNumber P n ≠ abort k := by
  intro h
  unfold deserializeNumber at h
  repeat' split at h
  all_goals cases k <;> cases h

theorem expr_not_abort {P : F64Parse} {e : Expr} {h : Hint} {k : Bool} : e.deserialize P h ≠ abort k := by
  have hany : ∀ e : Expr, e.deserializeAny P ≠ abort k := by
    intro e
    cases e with
    | number n => exact number_not_abort
    | _ => cases k <;> simp [Expr.deserializeAny, deserializeTuple, abort]
  intro hh
  unfold Expr.deserialize at hh
  cases h with
  | option => dsimp only at hh; split at hh <;> cases k <;> cases hh
  | newtypeStruct => cases k <;> cases hh
  | tuple l =>
    dsimp only at hh; split at hh
    · simp only [deserializeTuple] at hh; split at hh <;> cases k <;> cases hh
    · exact hany _ hh
  | tupleStruct l =>
    dsimp only at hh; split at hh
    · simp only [deserializeTuple] at hh; split at hh <;> cases k <;> cases hh
    · exact hany _ hh
  | _ => exact hany _ hh

theorem block_not_diverge {ord : HashOrder} {b : BlockBody} {h : Hint} : b.deserialize ord h ≠ .diverge := by
  have hany : b.deserializeAny ord ≠ .diverge := by
    unfold BlockBody.deserializeAny
    intro h
    repeat' split at h
    all_goals cases h
  intro hh
  unfold BlockBody.deserialize at hh
  cases h with
  | option => dsimp only at hh; split at hh <;> cases hh
  | seq =>
    cases b with
    | body bs => cases hh
    | labels e m => exact hany hh
  | _ => exact hany hh

theorem deserialize_total (P : F64Parse) (I : F64OfInt) (ord : HashOrder) (t : Ty) (n : Node) :
    deserialize P I ord t n ≠ .diverge := by
  refine deserialize_not_abort (k := false) (Safe := fun _ => True) ?_ (fun _ _ _ _ _ _ _ => trivial)
    (fun _ _ _ _ _ h => (by cases h)) _ t n (Nat.lt_succ_self _) trivial
  intro n h _ hh
  cases n with
  | expr e => exact expr_not_abort hh
  | body b => cases hh
  | block b => exact block_not_diverge hh
  | key s =>
    simp only [Node.deserialize, keyDeserialize] at hh
    split at hh <;> cases hh

end Verif
