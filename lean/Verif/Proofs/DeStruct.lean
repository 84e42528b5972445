import Verif.Proofs.DePlain
/-! # Deserialization: sequences, maps and structs -/
set_option autoImplicit false

namespace Verif
open Spec

theorem deAll_ok {f : Node → Res DeErr DVal} : ∀ {ns : List Node} {vs : List DVal},
    deAll f ns = .ok vs ↔ AllRel (fun n v => f n = .ok v) ns vs
  | [], vs => by
    constructor
    · intro h; cases h; exact .nil
    · intro h; cases h; rfl
  | n :: ns, vs => by
    simp only [deAll, bind_ok, map_ok]
    constructor
    · rintro ⟨v, h1, vs', h2, rfl⟩; exact .cons _ _ _ _ h1 (deAll_ok.1 h2)
    · intro h
      cases h with
      | cons _ v _ vs' h1 h2 => exact ⟨v, h1, vs', deAll_ok.2 h2, rfl⟩

theorem deFields_ok {f : Ty → Node → Res DeErr DVal} : ∀ {ts : List Ty} {ns : List Node} {vs : List DVal},
    deFields f ts ns = .ok vs ↔
      ts.length ≤ ns.length ∧ AllRel (fun p v => f p.1 p.2 = .ok v) (ts.zip ns) vs
  | [], ns, vs => by
    simp only [deFields, List.zip_nil_left]
    constructor
    · intro h; cases h; exact ⟨Nat.zero_le _, .nil⟩
    · rintro ⟨-, h⟩; cases h; rfl
  | t :: ts, [], vs => by
    simp only [deFields]
    constructor
    · intro h; cases h
    · rintro ⟨h, -⟩; simp at h
  | t :: ts, n :: ns, vs => by
    simp only [deFields, bind_ok, map_ok, List.zip_cons_cons, List.length_cons, Nat.succ_le_succ_iff]
    constructor
    · rintro ⟨v, h1, vs', h2, rfl⟩
      obtain ⟨h3, h4⟩ := deFields_ok.1 h2
      exact ⟨h3, .cons _ _ _ _ h1 h4⟩
    · rintro ⟨hl, h⟩
      cases h with
      | cons _ v _ vs' h1 h2 => exact ⟨v, h1, vs', deFields_ok.2 ⟨hl, h2⟩, rfl⟩

theorem runEntries_ok {f : Str → Node → Res DeErr DVal} {s : Stop} : ∀ {es : List (CowStr × Node)} {vs : List (Str × DVal)},
    runEntries f es s = .ok vs ↔
      s = .done ∧ AllRel (fun p q => q.1 = p.1.str ∧ f p.1.str p.2 = .ok q.2) es vs
  | [], vs => by
    cases s with
    | done =>
      simp only [runEntries, true_and]
      constructor
      · intro h; cases h; exact .nil
      · intro h; cases h; rfl
    | error e => simp [runEntries]
    | panicked => simp [runEntries]
  | (k, n) :: es, vs => by
    simp only [runEntries, bind_ok, map_ok]
    constructor
    · rintro ⟨v, h1, vs', h2, rfl⟩
      obtain ⟨h3, h4⟩ := runEntries_ok.1 h2
      exact ⟨h3, .cons _ _ _ _ ⟨rfl, h1⟩ h4⟩
    · rintro ⟨hs, h⟩
      cases h with
      | cons _ v _ vs' h1 h2 => exact ⟨v.2, h1.2, vs', runEntries_ok.2 ⟨hs, h2⟩, by rw [← h1.1]⟩

theorem entryLoop_ok {f : Str → Node → Res DeErr DVal} {a : MapAcc} {es : List (CowStr × Node)} {s : Stop}
    (hD : Drains a es s) {vs : List (Str × DVal)} :
    entryLoop f (a.remaining + 1) a = .ok vs ↔
      s = .done ∧ AllRel (fun p q => q.1 = p.1.str ∧ f p.1.str p.2 = .ok q.2) es vs := by
  rw [entryLoop_eq hD (Nat.lt_succ_self _), runEntries_ok]

/-! ## aligned lists -/

theorem Spec.AllRel.imp {α β : Type} {R S : α → β → Prop} {as : List α} {bs : List β} (h : AllRel R as bs)
    (hi : ∀ a b, a ∈ as → b ∈ bs → R a b → S a b) : AllRel S as bs := by
  induction h with
  | nil => exact .nil
  | cons a b as bs h1 _ ih =>
    exact .cons _ _ _ _ (hi a b (by simp) (by simp) h1)
      (ih fun a' b' ha hb => hi a' b' (by simp [ha]) (by simp [hb]))

theorem Spec.AllRel.left {α β : Type} {R : α → β → Prop} {as : List α} {bs : List β} (h : AllRel R as bs) {a : α}
    (ha : a ∈ as) : ∃ b ∈ bs, R a b := by
  induction h with
  | nil => cases ha
  | cons a' b as bs h1 _ ih =>
    rcases List.mem_cons.1 ha with rfl | ha
    · exact ⟨b, by simp, h1⟩
    · obtain ⟨b', hb, h⟩ := ih ha
      exact ⟨b', by simp [hb], h⟩

theorem Spec.AllRel.right {α β : Type} {R : α → β → Prop} {as : List α} {bs : List β} (h : AllRel R as bs) {b : β}
    (hb : b ∈ bs) : ∃ a ∈ as, R a b := by
  induction h with
  | nil => cases hb
  | cons a b' as bs h1 _ ih =>
    rcases List.mem_cons.1 hb with rfl | hb
    · exact ⟨a, by simp, h1⟩
    · obtain ⟨a', ha, h⟩ := ih hb
      exact ⟨a', by simp [ha], h⟩

theorem Spec.AllRel.exists_of {α β : Type} {R : α → β → Prop} {as : List α} (h : ∀ a ∈ as, ∃ b, R a b) :
    ∃ bs, AllRel R as bs := by
  induction as with
  | nil => exact ⟨[], .nil⟩
  | cons a as ih =>
    obtain ⟨b, hb⟩ := h a (by simp)
    obtain ⟨bs, hbs⟩ := ih fun a ha => h a (by simp [ha])
    exact ⟨b :: bs, .cons _ _ _ _ hb hbs⟩

theorem Spec.AllRel.length {α β : Type} {R : α → β → Prop} {as : List α} {bs : List β} (h : AllRel R as bs) :
    as.length = bs.length := by
  induction h with
  | nil => rfl
  | cons _ _ _ _ _ _ ih => simp [ih]

/-! ## structs -/

theorem field?_none {α : Type} {k : Str} {l : List (Str × α)} : field? k l = none ↔ k ∉ l.map Prod.fst := by
  induction l with
  | nil => simp [field?]
  | cons p l ih =>
    obtain ⟨k', v⟩ := p
    simp only [field?]
    split
    · rename_i h; subst h; simp
    · rename_i h; rw [ih]; simp [Ne.symm h]

theorem field?_of_mem {α : Type} {k : Str} {l : List (Str × α)} {v : α} (h : (k, v) ∈ l) (hn : (l.map Prod.fst).Nodup) :
    field? k l = some v := by
  induction l with
  | nil => cases h
  | cons p l ih =>
    obtain ⟨k', v'⟩ := p
    simp only [List.map_cons, List.nodup_cons] at hn
    rcases List.mem_cons.1 h with h | h
    · cases h; simp [field?]
    · have : k' ≠ k := by rintro rfl; exact hn.1 (List.mem_map.2 ⟨_, h, rfl⟩)
      simp [field?, this, ih h hn.2]

theorem structFields_ok {found : List (Str × DVal)} : ∀ {fs : List (Str × Ty)} {vs : List (Str × DVal)},
    structFields found fs = .ok vs ↔
      AllRel (fun p q => q.1 = p.1 ∧
        (field? p.1 found = some q.2 ∨ (field? p.1 found = none ∧ (∃ t, p.2 = .option t) ∧ q.2 = .none))) fs vs
  | [], vs => by
    constructor
    · intro h; cases h; exact .nil
    · intro h; cases h; rfl
  | (k, t) :: fs, vs => by
    simp only [structFields]
    cases hf : field? k found with
    | some v =>
      simp only [map_ok]
      constructor
      · rintro ⟨vs', h, rfl⟩
        exact .cons _ _ _ _ ⟨rfl, .inl hf⟩ (structFields_ok.1 h)
      · intro h
        cases h with
        | cons _ q _ vs' h1 h2 =>
          obtain ⟨h1, h3⟩ := h1
          rcases h3 with h3 | ⟨h3, -⟩
          · dsimp only at h3; rw [hf] at h3; injection h3 with h3
            dsimp only at h1
            refine ⟨vs', structFields_ok.2 h2, ?_⟩
            rw [← h1, h3]
          · dsimp only at h3; rw [hf] at h3; cases h3
    | none =>
      cases t with
      | option t =>
        simp only [map_ok]
        constructor
        · rintro ⟨vs', h, rfl⟩
          exact .cons _ _ _ _ ⟨rfl, .inr ⟨hf, ⟨t, rfl⟩, rfl⟩⟩ (structFields_ok.1 h)
        · intro h
          cases h with
          | cons _ q _ vs' h1 h2 =>
            obtain ⟨h1, h3⟩ := h1
            rcases h3 with h3 | ⟨-, -, h3⟩
            · dsimp only at h3; rw [hf] at h3; cases h3
            · dsimp only at h1 h3
              exact ⟨vs', structFields_ok.2 h2, by rw [← h1, ← h3]⟩
      | _ =>
        constructor
        · intro h; cases h
        · intro h
          cases h with
          | cons _ q _ vs' h1 h2 =>
            obtain ⟨h1, h3⟩ := h1
            rcases h3 with h3 | ⟨-, ⟨t', ht⟩, -⟩
            · dsimp only at h3; rw [hf] at h3; cases h3
            · cases ht

/-! ## the entries of a body -/

/-- the drained entries are those of the body -/
theorem drained_entry {ord : HashOrder} {b : Body} {es : List (CowStr × Node)}
    (hD : Drains (.body (.new ord b)) es .done) :
    (es.map fun p => p.1.str).Nodup ∧ Distinct (attrs b) ∧ ¬ NameClash b ∧
    ∀ k n, (∃ p ∈ es, p.1.str = k ∧ p.2 = n) ↔ EntryOf b k n := by
  have hd : Distinct (attrs b) := Classical.byContradiction fun hd => by
    obtain ⟨es', e, hD'⟩ := (Props.c44_error_iff ord b).1.2 hd
    cases (drains_functional hD hD').2
  have hc : ¬ NameClash b := fun hc => by
    obtain ⟨es', hD'⟩ := (Props.c45_clash_panics ord b).1.2 ⟨hd, hc⟩
    cases (drains_functional hD hD').2
  obtain ⟨bs, hD', h1, h2, h3⟩ := Props.c44_attributes_then_block_types ord b hd hc
  obtain ⟨rfl, -⟩ := drains_functional hD hD'
  refine ⟨?_, hd, hc, fun k n => ?_⟩
  · rw [List.map_append, List.map_map, List.map_map, List.nodup_append]
    refine ⟨hd, h1, fun x hx y hy hxy => ?_⟩
    obtain ⟨p, hp, rfl⟩ := List.mem_map.1 hx
    obtain ⟨q, hq, rfl⟩ := List.mem_map.1 hy
    obtain ⟨c, hc', ht⟩ := (h2 q.1.str).1 (List.mem_map_of_mem hq)
    exact hc ⟨p, hp, c, hc', by rw [ht]; exact hxy⟩
  · constructor
    · rintro ⟨p, hp, rfl, rfl⟩
      rcases List.mem_append.1 hp with hp | hp
      · obtain ⟨q, hq, rfl⟩ := List.mem_map.1 hp
        exact .inl ⟨q.1, q.2, hq, rfl, rfl⟩
      · obtain ⟨q, hq, rfl⟩ := List.mem_map.1 hp
        obtain ⟨run, h4, h5⟩ := h3 q hq
        exact .inr ⟨run, h4, by dsimp only; rw [h5]⟩
    · rintro (⟨k', e, he, rfl, rfl⟩ | ⟨run, hr, rfl⟩)
      · exact ⟨(k', .expr e), List.mem_append.2 (.inl (List.mem_map.2 ⟨(k', e), he, rfl⟩)), rfl, rfl⟩
      · have : k ∈ bs.map fun p => p.1.str := by
          obtain ⟨pre, post, he, i1, i2, -⟩ := hr
          obtain ⟨q, hq⟩ := List.exists_mem_of_ne_nil _ i1
          exact (h2 k).2 ⟨q, by rw [he]; simp [hq], i2 q hq⟩
        obtain ⟨q, hq, rfl⟩ := List.mem_map.1 this
        obtain ⟨run', h4, h5⟩ := h3 q hq
        have := lastRun_unique hr h4
        subst this
        exact ⟨(q.1, .block q.2), List.mem_append.2 (.inr (List.mem_map.2 ⟨q, hq, rfl⟩)), rfl, by dsimp only; rw [h5]⟩

theorem drained_exists (ord : HashOrder) {b : Body} (hd : Distinct (attrs b)) (hc : ¬ NameClash b) :
    ∃ es, Drains (.body (.new ord b)) es .done := by
  obtain ⟨bs, hD, -⟩ := Props.c44_attributes_then_block_types ord b hd hc
  exact ⟨_, hD⟩

/-- what a body is as a map -/
theorem body_map_ok {P : F64Parse} {I : F64OfInt} {ord : HashOrder} {b : Body} {t : Ty} {v : DVal} :
    deserialize P I ord (.map t) (.body b) = .ok v ↔
      ∃ es vs, v = .entries vs ∧ Drains (.body (.new ord b)) es .done ∧
        AllRel (fun p q => q.1 = p.1.str ∧ deserialize P I ord t p.2 = .ok q.2) es vs := by
  rw [deserialize_eq]
  obtain ⟨es, s, hD, -⟩ := drains_exists (.body (.new ord b))
  show ((entryLoop (fun _ => deserialize P I ord t) _ _).map DVal.entries = _) ↔ _
  rw [map_ok]
  constructor
  · rintro ⟨vs, h, rfl⟩
    obtain ⟨rfl, h⟩ := (entryLoop_ok hD).1 h
    exact ⟨es, vs, rfl, hD, h⟩
  · rintro ⟨es', vs, rfl, hD', h⟩
    obtain ⟨rfl, rfl⟩ := drains_functional hD hD'
    exact ⟨vs, (entryLoop_ok hD).2 ⟨rfl, h⟩, rfl⟩

theorem body_struct_ok {P : F64Parse} {I : F64OfInt} {ord : HashOrder} {b : Body} {fs : List (Str × Ty)} {v : DVal} :
    deserialize P I ord (.struct fs) (.body b) = .ok v ↔
      ∃ es found vs, v = .entries vs ∧ Drains (.body (.new ord b)) es .done ∧
        AllRel (fun p q => q.1 = p.1.str ∧
          deserialize P I ord ((field? p.1.str fs).getD .ignored) p.2 = .ok q.2) es found ∧
        structFields found fs = .ok vs := by
  rw [deserialize_eq]
  obtain ⟨es, s, hD, -⟩ := drains_exists (.body (.new ord b))
  show ((entryLoop (fun k => deserialize P I ord ((field? k fs).getD .ignored)) _ _).bind
    (fun es => (structFields es fs).map DVal.entries) = _) ↔ _
  simp only [bind_ok, map_ok]
  constructor
  · rintro ⟨found, h, vs, h2, rfl⟩
    obtain ⟨rfl, h⟩ := (entryLoop_ok hD).1 h
    exact ⟨es, found, vs, rfl, hD, h, h2⟩
  · rintro ⟨es', found, vs, rfl, hD', h, h2⟩
    obtain ⟨rfl, rfl⟩ := drains_functional hD hD'
    exact ⟨found, (entryLoop_ok hD).2 ⟨rfl, h⟩, vs, h2, rfl⟩

theorem allRel_keys {R : CowStr × Node → Str × DVal → Prop} {es : List (CowStr × Node)} {vs : List (Str × DVal)}
    (h : AllRel R es vs) (hk : ∀ p q, R p q → q.1 = p.1.str) : vs.map Prod.fst = es.map fun p => p.1.str := by
  induction h with
  | nil => rfl
  | cons p q es vs h _ ih => simp [ih, hk p q h]

end Verif
