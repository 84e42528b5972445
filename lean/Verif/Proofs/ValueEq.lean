import Verif.Model.ValueEq
import Verif.Spec.ValueEq
import Verif.Proofs.Unique
import Verif.Proofs.Blocks
import Verif.Props.Equality
/-! # Equality of legacy values -/
set_option autoImplicit false

namespace Verif
open Spec Props

/-! ## pairing -/

section
variable {α β : Type}

theorem allPairs_congr {R S : α → β → Prop} {as : List α} {bs : List β} (h : ∀ a ∈ as, ∀ b ∈ bs, R a b ↔ S a b) :
    AllPairs R as bs ↔ AllPairs S as bs := by
  induction as generalizing bs with
  | nil => constructor <;> (intro h; cases h; exact .nil)
  | cons a as ih =>
    constructor <;> intro hp <;> cases hp with
    | cons _ b _ bs h1 h2 =>
      have h3 := ih (bs := bs) fun a ha b hb => h a (by simp [ha]) b (by simp [hb])
      first
      | exact .cons _ _ _ _ ((h a (by simp) b (by simp)).mp h1) (h3.mp h2)
      | exact .cons _ _ _ _ ((h a (by simp) b (by simp)).mpr h1) (h3.mpr h2)

theorem allPairs_mono {R S : α → β → Prop} {as : List α} {bs : List β} (h : ∀ a ∈ as, ∀ b ∈ bs, R a b → S a b)
    (hp : AllPairs R as bs) : AllPairs S as bs := by
  induction hp with
  | nil => exact .nil
  | cons a b as bs h1 _ ih =>
    exact .cons _ _ _ _ (h a (by simp) b (by simp) h1) (ih fun a ha b hb => h a (by simp [ha]) b (by simp [hb]))

theorem allPairs_flip {R : α → β → Prop} {as : List α} {bs : List β} (hp : AllPairs R as bs) :
    AllPairs (fun b a => R a b) bs as := by
  induction hp with
  | nil => exact .nil
  | cons a b as bs h1 _ ih => exact .cons _ _ _ _ h1 ih

theorem allPairs_length {R : α → β → Prop} {as : List α} {bs : List β} (hp : AllPairs R as bs) : as.length = bs.length := by
  induction hp with
  | nil => rfl
  | cons a b as bs h1 _ ih => simp [ih]

theorem allPairs_left {R : α → β → Prop} {as : List α} {bs : List β} (hp : AllPairs R as bs) : ∀ a ∈ as, ∃ b ∈ bs, R a b := by
  intro a ha
  exact allPairs_right (allPairs_flip hp) a ha

/-- Reordering the second list reorders the first. -/
theorem allPairs_perm {R : α → β → Prop} {c b : List β} (hp : c.Perm b) : ∀ {a : List α}, AllPairs R a c →
    ∃ a', a'.Perm a ∧ AllPairs R a' b := by
  induction hp with
  | nil => intro a h; exact ⟨a, .refl _, h⟩
  | cons x _ ih =>
    intro a h
    cases h with
    | cons y _ as _ h1 h2 =>
      obtain ⟨a', h3, h4⟩ := ih h2
      exact ⟨y :: a', h3.cons _, .cons _ _ _ _ h1 h4⟩
  | swap x y l =>
    intro a h
    cases h with
    | cons u _ as _ h1 h2 =>
      cases h2 with
      | cons v _ as _ h2 h3 => exact ⟨v :: u :: as, .swap _ _ _, .cons _ _ _ _ h2 (.cons _ _ _ _ h1 h3)⟩
  | trans _ _ ih1 ih2 =>
    intro a h
    obtain ⟨a1, h1, h2⟩ := ih1 h
    obtain ⟨a2, h3, h4⟩ := ih2 h2
    exact ⟨a2, h3.trans h1, h4⟩
end

/-! ## hash maps -/

/-- Both absent, or both present and related. -/
def OptRel {V : Type} (R : V → V → Prop) : Option V → Option V → Prop
  | none, none => True
  | some v, some w => R v w
  | _, _ => False

section
variable {K V N : Type} [DecidableEq N] {norm : K → N} {R : V → V → Prop}

theorem hget_none {q : N} {m : HashMap K V} : HashMap.get norm q m = none ↔ ∀ p ∈ m, norm p.1 ≠ q := by
  induction m with
  | nil => simp [HashMap.get]
  | cons p m ih =>
    obtain ⟨k, v⟩ := p
    by_cases h : norm k = q <;> simp [HashMap.get, h, ih]

theorem hget_perm {a b : HashMap K V} (hp : a.Perm b) (hn : (a.map fun p => norm p.1).Nodup) (q : N) :
    HashMap.get norm q a = HashMap.get norm q b := by
  have hb : (b.map fun p => norm p.1).Nodup := (hp.map _).nodup_iff.mp hn
  cases h : HashMap.get norm q a with
  | none =>
    rw [hget_none] at h
    exact (hget_none.mpr fun p hm => h p (hp.mem_iff.mpr hm)).symm
  | some v =>
    obtain ⟨k, hm, rfl⟩ := get_some h
    exact (get_of_mem (p := (k, v)) (hp.mem_iff.mp hm) hb).symm

/-- An entry found can be taken out. -/
theorem hget_take {q : N} {w : V} : ∀ {b : HashMap K V}, (b.map fun p => norm p.1).Nodup → HashMap.get norm q b = some w →
    ∃ k b', norm k = q ∧ ((k, w) :: b').Perm b ∧ (b'.map fun p => norm p.1).Nodup ∧ HashMap.get norm q b' = none ∧
      ∀ q', q' ≠ q → HashMap.get norm q' b' = HashMap.get norm q' b := by
  intro b hn h
  obtain ⟨k, hm, hk⟩ := get_some h
  obtain ⟨s, t, rfl⟩ := List.append_of_mem hm
  have hp : ((k, w) :: (s ++ t)).Perm (s ++ (k, w) :: t) := (List.perm_middle).symm
  have hn' : (((k, w) :: (s ++ t)).map fun p => norm p.1).Nodup := (hp.map _).nodup_iff.mpr hn
  refine ⟨k, s ++ t, hk, hp, ?_, ?_, ?_⟩
  · exact (List.nodup_cons.mp hn').2
  · rw [hget_none]
    intro p hp' he
    have := (List.nodup_cons.mp hn').1
    exact this (List.mem_map.mpr ⟨p, hp', by rw [he, ← hk]⟩)
  · intro q' hq'
    rw [← hget_perm hp hn' q']
    simp only [HashMap.get]
    rw [if_neg]
    intro e; exact hq' (by rw [← e, hk])

/-- What `PartialEq for HashMap` compares. -/
theorem hash_pairs {a : HashMap K V} : ∀ {b : HashMap K V}, (a.map fun p => norm p.1).Nodup → (b.map fun p => norm p.1).Nodup →
    a.length = b.length → (∀ p ∈ a, ∃ w, HashMap.get norm (norm p.1) b = some w ∧ R p.2 w) →
    ∃ c, AllPairs (fun p q => norm p.1 = norm q.1 ∧ R p.2 q.2) a c ∧ c.Perm b := by
  induction a with
  | nil => intro b _ _ h _; cases b with | nil => exact ⟨[], .nil, .refl _⟩ | cons _ _ => cases h
  | cons p a ih =>
    intro b ha hb hlen hall
    obtain ⟨k, v⟩ := p
    obtain ⟨w, hw, hr⟩ := hall (k, v) (by simp)
    obtain ⟨k', b', hk, hp, hb', -, hother⟩ := hget_take hb hw
    have hne : ∀ p ∈ a, norm p.1 ≠ norm k := by
      intro p hm he
      exact (List.nodup_cons.mp ha).1 (List.mem_map.mpr ⟨p, hm, he⟩)
    have hl := hp.length_eq
    obtain ⟨c, h1, h2⟩ := ih (b := b') (List.nodup_cons.mp ha).2 hb' (by simp at hl hlen; omega) (by
      intro p hm
      obtain ⟨w, h1, h2⟩ := hall p (by simp [hm])
      exact ⟨w, by rw [hother _ (hne p hm)]; exact h1, h2⟩)
    exact ⟨(k', w) :: c, .cons _ _ _ _ ⟨hk.symm, hr⟩ h1, (h2.cons _).trans hp⟩

theorem pairs_nodup {S : K × V → K × V → Prop} (hS : ∀ p q, S p q → norm p.1 = norm q.1) {a c : HashMap K V} (h : AllPairs S a c) :
    (c.map fun p => norm p.1) = a.map fun p => norm p.1 := by
  induction h with
  | nil => rfl
  | cons p q a c h1 _ ih => simp [ih, hS _ _ h1]

theorem pairs_get {a c : HashMap K V} (h : AllPairs (fun p q => norm p.1 = norm q.1 ∧ R p.2 q.2) a c) (q : N) :
    OptRel R (HashMap.get norm q a) (HashMap.get norm q c) := by
  induction h with
  | nil => trivial
  | cons p p' a c h1 _ ih =>
    obtain ⟨k, v⟩ := p; obtain ⟨l, w⟩ := p'
    simp only [HashMap.get, ← h1.1]
    split
    · exact h1.2
    · exact ih

/-- Entries equal up to order: the lookups agree. -/
theorem hash_lookup {a b : HashMap K V} (ha : (a.map fun p => norm p.1).Nodup) (hb : (b.map fun p => norm p.1).Nodup) :
    (∃ c, AllPairs (fun p q => norm p.1 = norm q.1 ∧ R p.2 q.2) a c ∧ c.Perm b) ↔
      ∀ q, OptRel R (HashMap.get norm q a) (HashMap.get norm q b) := by
  constructor
  · rintro ⟨c, h, hp⟩ q
    rw [← hget_perm hp ((hp.map _).nodup_iff.mpr hb) q]
    exact pairs_get h q
  · intro h
    induction a generalizing b with
    | nil =>
      cases b with
      | nil => exact ⟨[], .nil, .refl _⟩
      | cons p b =>
        obtain ⟨k, v⟩ := p
        have := h (norm k)
        simp [HashMap.get, OptRel] at this
    | cons p a ih =>
      obtain ⟨k, v⟩ := p
      have h0 := h (norm k)
      simp only [HashMap.get, if_true] at h0
      cases hg : HashMap.get norm (norm k) b with
      | none => rw [hg] at h0; exact h0.elim
      | some w =>
        rw [hg] at h0
        obtain ⟨k', b', hk, hp, hb', hnone, hother⟩ := hget_take hb hg
        have hnot : HashMap.get norm (norm k) a = none := by
          rw [hget_none]; intro p hm he
          exact (List.nodup_cons.mp ha).1 (List.mem_map.mpr ⟨p, hm, he⟩)
        obtain ⟨c, h1, h2⟩ := ih (b := b') (List.nodup_cons.mp ha).2 hb' (by
          intro q
          by_cases hq : q = norm k
          · subst hq; rw [hnot, hnone]; trivial
          · rw [hother q hq]
            have := h q
            simp only [HashMap.get] at this
            rwa [if_neg (fun e => hq e.symm)] at this)
        exact ⟨(k', w) :: c, .cons _ _ _ _ ⟨hk.symm, h0⟩ h1, (h2.cons _).trans hp⟩
end

/-! ## inversion of the specification -/

section
variable {F : F64 → F64 → Prop}

theorem eqVKey_iff {k l : Key} : EqVKey k l ↔ k.norm = l.norm := by
  constructor
  · intro h; cases h with
    | identifier a b h => simp [Key.norm, h]
    | string a b h => simp [Key.norm, h]
  · intro h
    cases k <;> cases l <;> simp [Key.norm] at h
    · exact .identifier _ _ h
    · exact .string _ _ h

/-- entries with the same key and equal values -/
abbrev EntryRel (F : F64 → F64 → Prop) (p q : Key × Value) : Prop := p.1.norm = q.1.norm ∧ EqValue F p.2 q.2
/-- bodies with the same labels and equal contents -/
abbrev BodyRel (F : F64 → F64 → Prop) (p q : List Str × MapValues) : Prop := id p.1 = id q.1 ∧ EqMap F p.2 q.2

theorem eqValues_iff {a b : List Value} : EqValues F a b ↔ AllPairs (EqValue F) a b := by
  induction a generalizing b with
  | nil => constructor <;> (intro h; cases h; exact .nil)
  | cons v a ih =>
    constructor <;> intro h
    · cases h with | cons _ w _ b h1 h2 => exact .cons _ _ _ _ h1 (ih.mp h2)
    · cases h with | cons _ w _ b h1 h2 => exact .cons _ _ _ _ h1 (ih.mpr h2)

theorem eqMaps_iff {a b : List MapValues} : EqMaps F a b ↔ AllPairs (EqMap F) a b := by
  induction a generalizing b with
  | nil => constructor <;> (intro h; cases h; exact .nil)
  | cons v a ih =>
    constructor <;> intro h
    · cases h with | cons _ w _ b h1 h2 => exact .cons _ _ _ _ h1 (ih.mp h2)
    · cases h with | cons _ w _ b h1 h2 => exact .cons _ _ _ _ h1 (ih.mpr h2)

theorem eqEntries_iff {a b : List (Key × Value)} : EqEntries F a b ↔ AllPairs (EntryRel F) a b := by
  induction a generalizing b with
  | nil => constructor <;> (intro h; cases h; exact .nil)
  | cons v a ih =>
    obtain ⟨k, v⟩ := v
    constructor <;> intro h
    · cases h with | cons _ l _ w _ b h0 h1 h2 => exact .cons _ _ _ _ ⟨eqVKey_iff.mp h0, h1⟩ (ih.mp h2)
    · cases h with | cons _ w _ b h1 h2 => exact .cons _ _ _ _ _ _ (eqVKey_iff.mpr h1.1) h1.2 (ih.mpr h2)

theorem eqBodies_iff {a b : List (List Str × MapValues)} : EqBodies F a b ↔ AllPairs (BodyRel F) a b := by
  induction a generalizing b with
  | nil => constructor <;> (intro h; cases h; exact .nil)
  | cons v a ih =>
    obtain ⟨k, v⟩ := v
    constructor <;> intro h
    · cases h with | cons _ _ w _ b h1 h2 => exact .cons _ _ _ _ ⟨rfl, h1⟩ (ih.mp h2)
    · cases h with
      | cons _ w _ b h1 h2 =>
        obtain ⟨l, w⟩ := w
        obtain ⟨rfl, h1⟩ := h1
        exact .cons _ _ _ _ _ h1 (ih.mpr h2)

theorem eqValue_list {l : List Value} {w : Value} : EqValue F (.list l) w ↔ ∃ b, w = .list b ∧ AllPairs (EqValue F) l b := by
  constructor
  · intro h; cases h with | list _ b h => exact ⟨b, rfl, eqValues_iff.mp h⟩
  · rintro ⟨b, rfl, h⟩; exact .list _ _ (eqValues_iff.mpr h)

theorem eqValue_object {l : List MapValues} {w : Value} : EqValue F (.object l) w ↔ ∃ b, w = .object b ∧ AllPairs (EqMap F) l b := by
  constructor
  · intro h; cases h with | object _ b h => exact ⟨b, rfl, eqMaps_iff.mp h⟩
  · rintro ⟨b, rfl, h⟩; exact .object _ _ (eqMaps_iff.mpr h)

theorem eqValue_unmergedBlock {l : List (List Str × MapValues)} {w : Value} : EqValue F (.block (.unmerged l)) w ↔
    ∃ b, w = .block (.unmerged b) ∧ AllPairs (BodyRel F) l b := by
  constructor
  · intro h; cases h with | block _ b h => cases h with | unmerged _ b h => exact ⟨b, rfl, eqBodies_iff.mp h⟩
  · rintro ⟨b, rfl, h⟩; exact .block _ _ (.unmerged _ _ (eqBodies_iff.mpr h))

theorem eqValue_mergedBlock {l : List (List Str × MapValues)} {w : Value} : EqValue F (.block (.merged l)) w ↔
    ∃ b, w = .block (.merged b) ∧ ∃ c, AllPairs (BodyRel F) l c ∧ c.Perm b := by
  constructor
  · intro h; cases h with | block _ b h => cases h with | merged _ b c h hp => exact ⟨b, rfl, c, eqBodies_iff.mp h, hp⟩
  · rintro ⟨b, rfl, c, h, hp⟩; exact .block _ _ (.merged _ _ _ (eqBodies_iff.mpr h) hp)

theorem eqMap_unmerged {l : List (Key × Value)} {w : MapValues} : EqMap F (.unmerged l) w ↔
    ∃ b, w = .unmerged b ∧ AllPairs (EntryRel F) l b := by
  constructor
  · intro h; cases h with | unmerged _ b h => exact ⟨b, rfl, eqEntries_iff.mp h⟩
  · rintro ⟨b, rfl, h⟩; exact .unmerged _ _ (eqEntries_iff.mpr h)

theorem eqMap_merged {l : List (Key × Value)} {w : MapValues} : EqMap F (.merged l) w ↔
    ∃ b, w = .merged b ∧ ∃ c, AllPairs (EntryRel F) l c ∧ c.Perm b := by
  constructor
  · intro h; cases h with | merged _ b c h hp => exact ⟨b, rfl, c, eqEntries_iff.mp h, hp⟩
  · rintro ⟨b, rfl, c, h, hp⟩; exact .merged _ _ _ (eqEntries_iff.mpr h) hp

theorem eqValue_variant {v w : Value} (h : EqValue F v w) : w.variant = v.variant := by cases h <;> rfl
end

/-! ## the code computes it -/

section
variable (F : F64 → F64 → Bool)

theorem key_eq_iff (k l : Key) : k.eq l = true ↔ k.norm = l.norm := by
  cases k <;> cases l <;> simp [Key.eq, Key.norm]

theorem eqList_iff {a b : List Value} : Value.eqList F a b = true ↔ AllPairs (fun v w => v.eq F w = true) a b := by
  induction a generalizing b with
  | nil =>
    cases b with
    | nil => exact ⟨fun _ => .nil, fun _ => by simp [Value.eqList]⟩
    | cons _ _ => exact ⟨fun h => (by simp [Value.eqList] at h), fun h => (by cases h)⟩
  | cons v a ih =>
    cases b with
    | nil => exact ⟨fun h => (by simp [Value.eqList] at h), fun h => (by cases h)⟩
    | cons w b =>
      simp only [Value.eqList, Bool.and_eq_true, ih]
      exact ⟨fun h => .cons _ _ _ _ h.1 h.2, fun h => by cases h with | cons _ _ _ _ h1 h2 => exact ⟨h1, h2⟩⟩

theorem eqMapsB_iff {a b : List MapValues} : Value.eqMaps F a b = true ↔ AllPairs (fun v w => Value.eqMap F v w = true) a b := by
  induction a generalizing b with
  | nil =>
    cases b with
    | nil => exact ⟨fun _ => .nil, fun _ => by simp [Value.eqMaps]⟩
    | cons _ _ => exact ⟨fun h => (by simp [Value.eqMaps] at h), fun h => (by cases h)⟩
  | cons v a ih =>
    cases b with
    | nil => exact ⟨fun h => (by simp [Value.eqMaps] at h), fun h => (by cases h)⟩
    | cons w b =>
      simp only [Value.eqMaps, Bool.and_eq_true, ih]
      exact ⟨fun h => .cons _ _ _ _ h.1 h.2, fun h => by cases h with | cons _ _ _ _ h1 h2 => exact ⟨h1, h2⟩⟩

theorem eqEntriesB_iff {a b : List (Key × Value)} : Value.eqEntries F a b = true ↔
    AllPairs (fun p q => p.1.norm = q.1.norm ∧ p.2.eq F q.2 = true) a b := by
  induction a generalizing b with
  | nil =>
    cases b with
    | nil => exact ⟨fun _ => .nil, fun _ => by simp [Value.eqEntries]⟩
    | cons _ _ => exact ⟨fun h => (by simp [Value.eqEntries] at h), fun h => (by cases h)⟩
  | cons v a ih =>
    obtain ⟨k, v⟩ := v
    cases b with
    | nil => exact ⟨fun h => (by simp [Value.eqEntries] at h), fun h => (by cases h)⟩
    | cons w b =>
      obtain ⟨l, w⟩ := w
      simp only [Value.eqEntries, Bool.and_eq_true, ih, key_eq_iff]
      exact ⟨fun h => .cons _ _ _ _ h.1 h.2, fun h => by cases h with | cons _ _ _ _ h1 h2 => exact ⟨h1, h2⟩⟩

theorem eqBodiesB_iff {a b : List (List Str × MapValues)} : Value.eqBodies F a b = true ↔
    AllPairs (fun p q => id p.1 = id q.1 ∧ Value.eqMap F p.2 q.2 = true) a b := by
  induction a generalizing b with
  | nil =>
    cases b with
    | nil => exact ⟨fun _ => .nil, fun _ => by simp [Value.eqBodies]⟩
    | cons _ _ => exact ⟨fun h => (by simp [Value.eqBodies] at h), fun h => (by cases h)⟩
  | cons v a ih =>
    obtain ⟨k, v⟩ := v
    cases b with
    | nil => exact ⟨fun h => (by simp [Value.eqBodies] at h), fun h => (by cases h)⟩
    | cons w b =>
      obtain ⟨l, w⟩ := w
      simp only [Value.eqBodies, Bool.and_eq_true, ih, beq_iff_eq]
      exact ⟨fun h => .cons _ _ _ _ h.1 h.2, fun h => by cases h with | cons _ _ _ _ h1 h2 => exact ⟨h1, h2⟩⟩

theorem allEntries_iff {a b : List (Key × Value)} : Value.allEntries F a b = true ↔
    ∀ p ∈ a, ∃ w, HashMap.get Key.norm p.1.norm b = some w ∧ p.2.eq F w = true := by
  induction a with
  | nil => simp [Value.allEntries]
  | cons p a ih =>
    obtain ⟨k, v⟩ := p
    simp only [Value.allEntries, Bool.and_eq_true, ih, List.forall_mem_cons]
    cases HashMap.get Key.norm k.norm b <;> simp

theorem allBodies_iff {a b : List (List Str × MapValues)} : Value.allBodies F a b = true ↔
    ∀ p ∈ a, ∃ w, HashMap.get id p.1 b = some w ∧ Value.eqMap F p.2 w = true := by
  induction a with
  | nil => simp [Value.allBodies]
  | cons p a ih =>
    obtain ⟨k, v⟩ := p
    simp only [Value.allBodies, Bool.and_eq_true, ih, List.forall_mem_cons]
    cases HashMap.get id k b <;> simp

theorem value_eq_iff_both :
    (∀ v : Value, ∀ w, UniqueKeys (.val v) → UniqueKeys (.val w) → (v.eq F w = true ↔ EqValue (fun x y => F x y = true) v w)) ∧
    ∀ m : MapValues, ∀ n, UniqueKeys (.map m) → UniqueKeys (.map n) →
      (Value.eqMap F m n = true ↔ EqMap (fun x y => F x y = true) m n) := by
  apply Value.inductBoth
  · intro v h1 h2 h3 w _ _
    cases v <;> simp [Value.variant] at h1 h2 h3 <;> cases w <;>
      simp only [Value.eq, beq_iff_eq, Bool.false_eq_true, false_iff, true_iff] <;>
      first
      | exact .null
      | (intro h; cases h; done)
      | exact ⟨fun h => .float _ _ h, fun h => by cases h; assumption⟩
      | exact ⟨fun h => by subst h; constructor, fun h => by cases h; rfl⟩
  · intro l ih w hv hw
    rw [eqValue_list]
    cases w <;> simp only [Value.eq, Bool.false_eq_true, false_iff, eqList_iff]
    case list b =>
      rw [allPairs_congr fun x hx y hy => ih x hx y (uniqueKeys_child hv (.list _ _ hx)) (uniqueKeys_child hw (.list _ _ hy))]
      exact ⟨fun h => ⟨b, rfl, h⟩, fun ⟨_, e, h⟩ => by cases e; exact h⟩
    all_goals (rintro ⟨_, h, _⟩; cases h)
  · intro l ih w hv hw
    rw [eqValue_object]
    cases w <;> simp only [Value.eq, Bool.false_eq_true, false_iff, eqMapsB_iff]
    case object b =>
      rw [allPairs_congr fun x hx y hy => ih x hx y (uniqueKeys_child hv (.object _ _ hx)) (uniqueKeys_child hw (.object _ _ hy))]
      exact ⟨fun h => ⟨b, rfl, h⟩, fun ⟨_, e, h⟩ => by cases e; exact h⟩
    all_goals (rintro ⟨_, h, _⟩; cases h)
  · intro b ih w hv hw
    have hv' := uniqueKeys_child hv (.block b)
    cases w with
    | block b' =>
      have hw' := uniqueKeys_child hw (.block b')
      cases b with
      | unmerged l =>
        rw [eqValue_unmergedBlock]
        cases b' with
        | unmerged l' =>
          simp only [Value.eq, Value.eqBlock, eqBodiesB_iff]
          rw [allPairs_congr (S := BodyRel fun x y => F x y = true)]
          · exact ⟨fun h => ⟨l', rfl, h⟩, fun ⟨_, e, h⟩ => by cases e; exact h⟩
          · intro p hp q hq
            rw [ih p hp q.2 (uniqueKeys_child hv' (.body _ _ hp)) (uniqueKeys_child hw' (.body _ _ hq))]
        | merged l' =>
          simp only [Value.eq, Value.eqBlock, Bool.false_eq_true, false_iff]
          rintro ⟨_, h, _⟩; cases h
      | merged l =>
        rw [eqValue_mergedBlock]
        cases b' with
        | unmerged l' =>
          simp only [Value.eq, Value.eqBlock, Bool.false_eq_true, false_iff]
          rintro ⟨_, h, _⟩; cases h
        | merged l' =>
          simp only [Value.eq, Value.eqBlock, Bool.and_eq_true, beq_iff_eq, allBodies_iff]
          have hn1 : (l.map fun p => id p.1).Nodup := hv'.2 l (.refl _)
          have hn2 : (l'.map fun p => id p.1).Nodup := hw'.2 l' (.refl _)
          constructor
          · rintro ⟨hlen, hall⟩
            refine ⟨l', rfl, hash_pairs hn1 hn2 hlen fun p hp => ?_⟩
            obtain ⟨w, h1, h2⟩ := hall p hp
            obtain ⟨k, hm, -⟩ := get_some h1
            exact ⟨w, h1, (ih p hp w (uniqueKeys_child hv' (.body _ _ hp)) (uniqueKeys_child hw' (.body _ (k, w) hm))).mp h2⟩
          · rintro ⟨_, e, c, h, hp⟩
            injection e with e; injection e with e; subst e
            refine ⟨(allPairs_length h).trans hp.length_eq, fun p hpl => ?_⟩
            obtain ⟨q, hq, h1, h2⟩ := allPairs_left h p hpl
            have hql := hp.mem_iff.mp hq
            refine ⟨q.2, ?_, (ih p hpl q.2 (uniqueKeys_child hv' (.body _ _ hpl)) (uniqueKeys_child hw' (.body _ q hql))).mpr h2⟩
            have := get_of_mem (borrow := id) hql hn2
            rwa [← h1] at this
    | _ =>
      simp only [Value.eq, Bool.false_eq_true, false_iff]
      intro h; cases h
  · intro m ih n hv hw
    cases m with
    | unmerged l =>
      rw [eqMap_unmerged]
      cases n with
      | unmerged l' =>
        simp only [Value.eqMap, eqEntriesB_iff]
        rw [allPairs_congr (S := EntryRel fun x y => F x y = true)]
        · exact ⟨fun h => ⟨l', rfl, h⟩, fun ⟨_, e, h⟩ => by cases e; exact h⟩
        · intro p hp q hq
          rw [ih p hp q.2 (uniqueKeys_child hv (.entry _ _ hp)) (uniqueKeys_child hw (.entry _ _ hq))]
      | merged l' =>
        simp only [Value.eqMap, Bool.false_eq_true, false_iff]
        rintro ⟨_, h, _⟩; cases h
    | merged l =>
      rw [eqMap_merged]
      cases n with
      | unmerged l' =>
        simp only [Value.eqMap, Bool.false_eq_true, false_iff]
        rintro ⟨_, h, _⟩; cases h
      | merged l' =>
        simp only [Value.eqMap, Bool.and_eq_true, beq_iff_eq, allEntries_iff]
        have hn1 := hv.1 l (.refl _)
        have hn2 := hw.1 l' (.refl _)
        constructor
        · rintro ⟨hlen, hall⟩
          refine ⟨l', rfl, hash_pairs hn1 hn2 hlen fun p hp => ?_⟩
          obtain ⟨w, h1, h2⟩ := hall p hp
          obtain ⟨k, hm, -⟩ := get_some h1
          exact ⟨w, h1, (ih p hp w (uniqueKeys_child hv (.entry _ _ hp)) (uniqueKeys_child hw (.entry _ (k, w) hm))).mp h2⟩
        · rintro ⟨_, e, c, h, hp⟩
          injection e with e; subst e
          refine ⟨(allPairs_length h).trans hp.length_eq, fun p hpl => ?_⟩
          obtain ⟨q, hq, h1, h2⟩ := allPairs_left h p hpl
          have hql := hp.mem_iff.mp hq
          refine ⟨q.2, ?_, (ih p hpl q.2 (uniqueKeys_child hv (.entry _ _ hpl)) (uniqueKeys_child hw (.entry _ q hql))).mpr h2⟩
          have := get_of_mem (borrow := Key.norm) hql hn2
          rwa [← h1] at this
end

end Verif
