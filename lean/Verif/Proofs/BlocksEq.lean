import Verif.Model.BlocksEq
import Verif.Spec.BlocksEq
import Verif.Proofs.BlocksTypes
import Verif.Proofs.ValueEq
/-! # `==` on indexed blocks -/
set_option autoImplicit false

namespace Verif
open Spec Props

/-! ## places -/

section
variable {e : List Body} {m : List (BlockLabel × BlockBody)}

theorem at_nil {b c : BlockBody} : At b [] c ↔ c = b := by
  constructor
  · intro h; cases h; rfl
  · rintro rfl; exact .here _

theorem at_cons (hn : (m.map fun p => p.1.norm).Nodup) {l : BlockLabel} {ls : List BlockLabel} {c : BlockBody} :
    At (.labels e m) (l :: ls) c ↔ ∃ d, HashMap.get BlockLabel.norm l.norm m = some d ∧ At d ls c := by
  constructor
  · intro h
    cases h with
    | step _ _ p _ _ _ hp hl h =>
      exact ⟨p.2, by rw [← hl]; exact get_of_mem (borrow := BlockLabel.norm) hp hn, h⟩
  · rintro ⟨d, hd, h⟩
    obtain ⟨k, hk, hkl⟩ := get_some hd
    exact .step _ _ (k, d) _ _ _ hk hkl h

theorem at_functional : ∀ {q : List BlockLabel} {b c c' : BlockBody}, UniqueLabels b → At b q c → At b q c' → c = c' := by
  intro q
  induction q with
  | nil => intro b c c' _ h h'; rw [at_nil] at h h'; rw [h, h']
  | cons l ls ih =>
    intro b c c' hu h h'
    cases b with
    | body bs => have := (at_body.1 h).1; cases this
    | labels e m =>
      have hn := hu e m (.refl _)
      rw [at_cons hn] at h h'
      obtain ⟨d, h1, h2⟩ := h
      obtain ⟨d', h3, h4⟩ := h'
      rw [h1] at h3; injection h3 with h3; subst h3
      obtain ⟨k, hk, -⟩ := get_some h1
      exact ih (hu.child hk) h2 h4

theorem at_append {r : List BlockLabel} {d : BlockBody} : ∀ {q : List BlockLabel} {b c : BlockBody}, UniqueLabels b → At b q c →
    (At b (q ++ r) d ↔ At c r d) := by
  intro q
  induction q with
  | nil => intro b c _ h; rw [at_nil] at h; subst h; exact Iff.rfl
  | cons l ls ih =>
    intro b c hu h
    cases b with
    | body bs => have := (at_body.1 h).1; cases this
    | labels e m =>
      have hn := hu e m (.refl _)
      rw [at_cons hn] at h
      obtain ⟨x, h1, h2⟩ := h
      obtain ⟨k, hk, -⟩ := get_some h1
      rw [List.cons_append, at_cons hn]
      constructor
      · rintro ⟨y, h3, h4⟩
        rw [h1] at h3; injection h3 with h3; subst h3
        exact (ih (hu.child hk) h2).1 h4
      · intro h4; exact ⟨x, h1, (ih (hu.child hk) h2).2 h4⟩

theorem at_unique {q : List BlockLabel} {b c : BlockBody} (hu : UniqueLabels b) (h : At b q c) : UniqueLabels c := by
  induction h with
  | here => exact hu
  | step e m p l ls c hp _ _ ih => exact ih (hu.child hp)
end

theorem norm_label (q : Bool × Str) : ∃ l : BlockLabel, l.norm = q := by
  obtain ⟨b, s⟩ := q
  cases b
  · exact ⟨.identifier (.borrowed s), rfl⟩
  · exact ⟨.stringLiteral s, rfl⟩

/-- no node with labels is empty -/
def NoEmptyLabels (b : BlockBody) : Prop := ∀ e m, Sub b (.labels e m) → m ≠ []

theorem NoEmptyLabels.child {e : List Body} {m : List (BlockLabel × BlockBody)} (h : NoEmptyLabels (.labels e m))
    {p : BlockLabel × BlockBody} (hp : p ∈ m) : NoEmptyLabels p.2 :=
  fun e' m' hs => h e' m' (.step _ _ p _ hp hs)

section
variable {E : Body → Body → Prop}

theorem places_body {a b : List Body} : SamePlaces E (.body a) (.body b) ↔ AllPairs E a b := by
  constructor
  · intro h
    obtain ⟨c', h1, h2⟩ := (h []).1 _ (.here _)
    rw [at_nil] at h1; subst h1; exact h2
  · intro h q
    constructor
    · intro c hc
      obtain ⟨rfl, rfl⟩ := at_body.1 hc
      exact ⟨_, .here _, h⟩
    · intro c hc
      obtain ⟨rfl, rfl⟩ := at_body.1 hc
      exact ⟨_, .here _, h⟩

theorem places_body_labels {a e : List Body} {m : List (BlockLabel × BlockBody)} (hm : m ≠ []) :
    ¬ SamePlaces E (.body a) (.labels e m) := by
  intro h
  cases m with
  | nil => exact hm rfl
  | cons p m =>
    obtain ⟨c, h1, -⟩ := (h [p.1]).2 p.2 (.step _ _ p _ _ _ (by simp) rfl (.here _))
    have := (at_body.1 h1).1; cases this

theorem places_labels_body {a e : List Body} {m : List (BlockLabel × BlockBody)} (hm : m ≠ []) :
    ¬ SamePlaces E (.labels e m) (.body a) := by
  intro h
  cases m with
  | nil => exact hm rfl
  | cons p m =>
    obtain ⟨c, h1, -⟩ := (h [p.1]).1 p.2 (.step _ _ p _ _ _ (by simp) rfl (.here _))
    have := (at_body.1 h1).1; cases this

theorem places_labels {e e' : List Body} {m m' : List (BlockLabel × BlockBody)} (hn : (m.map fun p => p.1.norm).Nodup)
    (hn' : (m'.map fun p => p.1.norm).Nodup) :
    SamePlaces E (.labels e m) (.labels e' m') ↔ AllPairs E e e' ∧
      ∀ q, OptRel (SamePlaces E) (HashMap.get BlockLabel.norm q m) (HashMap.get BlockLabel.norm q m') := by
  constructor
  · intro h
    constructor
    · obtain ⟨c', h1, h2⟩ := (h []).1 _ (.here _)
      rw [at_nil] at h1; subst h1; exact h2
    · intro q
      obtain ⟨l, rfl⟩ := norm_label q
      cases h1 : HashMap.get BlockLabel.norm l.norm m with
      | none =>
        cases h2 : HashMap.get BlockLabel.norm l.norm m' with
        | none => trivial
        | some d' =>
          obtain ⟨c, h3, -⟩ := (h [l]).2 d' ((at_cons hn').2 ⟨d', h2, .here _⟩)
          obtain ⟨d, h4, -⟩ := (at_cons hn).1 h3
          rw [h1] at h4; cases h4
      | some d =>
        obtain ⟨c', h3, -⟩ := (h [l]).1 d ((at_cons hn).2 ⟨d, h1, .here _⟩)
        obtain ⟨d', h2, -⟩ := (at_cons hn').1 h3
        rw [h2]
        intro ls
        constructor
        · intro c hc
          obtain ⟨c', h5, h6⟩ := (h (l :: ls)).1 c ((at_cons hn).2 ⟨d, h1, hc⟩)
          obtain ⟨d2, h7, h8⟩ := (at_cons hn').1 h5
          rw [h2] at h7; injection h7 with h7; subst h7
          exact ⟨c', h8, h6⟩
        · intro c' hc
          obtain ⟨c, h5, h6⟩ := (h (l :: ls)).2 c' ((at_cons hn').2 ⟨d', h2, hc⟩)
          obtain ⟨d2, h7, h8⟩ := (at_cons hn).1 h5
          rw [h1] at h7; injection h7 with h7; subst h7
          exact ⟨c, h8, h6⟩
  · rintro ⟨he, h⟩ q
    cases q with
    | nil =>
      constructor
      · intro c hc; rw [at_nil] at hc; subst hc; exact ⟨_, .here _, he⟩
      · intro c hc; rw [at_nil] at hc; subst hc; exact ⟨_, .here _, he⟩
    | cons l ls =>
      have hl := h l.norm
      constructor
      · intro c hc
        obtain ⟨d, h1, h2⟩ := (at_cons hn).1 hc
        rw [h1] at hl
        cases h3 : HashMap.get BlockLabel.norm l.norm m' with
        | none => rw [h3] at hl; exact hl.elim
        | some d' =>
          rw [h3] at hl
          obtain ⟨c', h4, h5⟩ := (hl ls).1 c h2
          exact ⟨c', (at_cons hn').2 ⟨d', h3, h4⟩, h5⟩
      · intro c hc
        obtain ⟨d', h1, h2⟩ := (at_cons hn').1 hc
        rw [h1] at hl
        cases h3 : HashMap.get BlockLabel.norm l.norm m with
        | none => rw [h3] at hl; exact hl.elim
        | some d =>
          rw [h3] at hl
          obtain ⟨c', h4, h5⟩ := (hl ls).2 c h2
          exact ⟨c', (at_cons hn).2 ⟨d, h3, h4⟩, h5⟩
end

/-! ## what `==` computes -/

/-- equal bodies -/
abbrev BodyEq (O : FloatOps) : Body → Body → Prop := EqBody (NumEq O)

section
variable (O : FloatOps)

theorem eqBodyList_iff : ∀ a b : List Body, eqBodyList O a b = true ↔ AllPairs (BodyEq O) a b
  | [], [] => by simp only [eqBodyList, true_iff]; exact .nil
  | [], _ :: _ => by simp only [eqBodyList, Bool.false_eq_true, false_iff]; intro h; cases h
  | _ :: _, [] => by simp only [eqBodyList, Bool.false_eq_true, false_iff]; intro h; cases h
  | a :: as, b :: bs => by
    simp only [eqBodyList, Bool.and_eq_true, c61_bodies, eqBodyList_iff as bs]
    exact ⟨fun h => .cons _ _ _ _ h.1 h.2, fun h => by cases h; exact ⟨‹_›, ‹_›⟩⟩

theorem allLabels_iff {m' : List (BlockLabel × BlockBody)} : ∀ m : List (BlockLabel × BlockBody),
    BlockBody.allLabels O m m' = true ↔ ∀ p ∈ m, ∃ w, HashMap.get BlockLabel.norm p.1.norm m' = some w ∧ p.2.eq O w = true
  | [] => by simp [BlockBody.allLabels]
  | (k, b) :: m => by
    simp only [BlockBody.allLabels, Bool.and_eq_true, allLabels_iff m, List.forall_mem_cons]
    refine and_congr ?_ Iff.rfl
    cases HashMap.get BlockLabel.norm k.norm m' <;> simp

theorem allTypes_iff {m' : Blocks} : ∀ m : Blocks,
    Blocks.allTypes O m m' = true ↔ ∀ p ∈ m, ∃ w, HashMap.get CowStr.str p.1.str m' = some w ∧ p.2.eq O w = true
  | [] => by simp [Blocks.allTypes]
  | (k, b) :: m => by
    simp only [Blocks.allTypes, Bool.and_eq_true, allTypes_iff m, List.forall_mem_cons]
    refine and_congr ?_ Iff.rfl
    cases HashMap.get CowStr.str k.str m' <;> simp

/-- std's `PartialEq for HashMap`: the lookups agree -/
theorem hash_eq_iff {K V N : Type} [DecidableEq N] {norm : K → N} {R : V → V → Prop} {a b : HashMap K V}
    (ha : (a.map fun p => norm p.1).Nodup) (hb : (b.map fun p => norm p.1).Nodup) :
    (a.length = b.length ∧ ∀ p ∈ a, ∃ w, HashMap.get norm (norm p.1) b = some w ∧ R p.2 w) ↔
      ∀ q, OptRel R (HashMap.get norm q a) (HashMap.get norm q b) := by
  rw [← hash_lookup ha hb]
  constructor
  · rintro ⟨h1, h2⟩; exact hash_pairs ha hb h1 h2
  · rintro ⟨c, h1, h2⟩
    refine ⟨(allPairs_length h1).trans h2.length_eq, fun p hp => ?_⟩
    obtain ⟨p', hp', h3, h4⟩ := allPairs_left h1 p hp
    exact ⟨p'.2, by rw [h3]; exact get_of_mem (borrow := norm) (h2.mem_iff.1 hp') hb, h4⟩

theorem eq_labels_iff {e e' : List Body} {m m' : List (BlockLabel × BlockBody)} (hn : (m.map fun p => p.1.norm).Nodup)
    (hn' : (m'.map fun p => p.1.norm).Nodup) :
    (BlockBody.labels e m).eq O (.labels e' m') = true ↔ AllPairs (BodyEq O) e e' ∧
      ∀ q, OptRel (fun b b' => BlockBody.eq O b b' = true) (HashMap.get BlockLabel.norm q m) (HashMap.get BlockLabel.norm q m') := by
  simp only [BlockBody.eq, Bool.and_eq_true, eqBodyList_iff, beq_iff_eq, allLabels_iff]
  exact and_congr Iff.rfl (hash_eq_iff (R := fun b b' => BlockBody.eq O b b' = true) hn hn')

theorem eq_body_iff {a b : List Body} : (BlockBody.body a).eq O (.body b) = true ↔ AllPairs (BodyEq O) a b := by
  simp only [BlockBody.eq, eqBodyList_iff]

theorem optRel_congr {V : Type} {R S : V → V → Prop} {a b : Option V}
    (h : ∀ v w, a = some v → b = some w → (R v w ↔ S v w)) : OptRel R a b ↔ OptRel S a b := by
  cases a <;> cases b <;> simp only [OptRel]
  exact h _ _ rfl rfl

/-- `==` compares all places. -/
theorem eq_iff_places : ∀ b b' : BlockBody, UniqueLabels b → UniqueLabels b' → NoEmptyLabels b → NoEmptyLabels b' →
    (b.eq O b' = true ↔ SamePlaces (BodyEq O) b b') := by
  apply BlockBody.induct (P := fun b => ∀ b', UniqueLabels b → UniqueLabels b' → NoEmptyLabels b → NoEmptyLabels b' →
    (b.eq O b' = true ↔ SamePlaces (BodyEq O) b b'))
  · intro bs b' _ _ _ hf
    cases b' with
    | body bs' => rw [eq_body_iff, places_body]
    | labels e m =>
      simp only [BlockBody.eq, Bool.false_eq_true, false_iff]
      exact places_body_labels (hf e m (.refl _))
  · intro e m ih b' hu hu' hf hf'
    cases b' with
    | body bs' =>
      simp only [BlockBody.eq, Bool.false_eq_true, false_iff]
      exact places_labels_body (hf e m (.refl _))
    | labels e' m' =>
      have hn := hu e m (.refl _)
      have hn' := hu' e' m' (.refl _)
      rw [eq_labels_iff O hn hn', places_labels hn hn']
      refine and_congr Iff.rfl (forall_congr' fun q => optRel_congr fun v w hv hw => ?_)
      obtain ⟨k, hk, -⟩ := get_some hv
      obtain ⟨k', hk', -⟩ := get_some hw
      exact ih _ hk w (hu.child hk) (hu'.child hk') (hf.child hk) (hf'.child hk')

theorem blocks_eq_iff {m m' : Blocks} (hn : (m.map fun p => p.1.str).Nodup) (hn' : (m'.map fun p => p.1.str).Nodup) :
    Blocks.eq O m m' = true ↔
      ∀ q, OptRel (fun b b' => BlockBody.eq O b b' = true) (HashMap.get CowStr.str q m) (HashMap.get CowStr.str q m') := by
  simp only [Blocks.eq, Bool.and_eq_true, beq_iff_eq, allTypes_iff]
  exact hash_eq_iff (R := fun b b' => BlockBody.eq O b b' = true) hn hn'

/-- what makes a `Blocks` one -/
def GoodTypes (m : Blocks) : Prop :=
  (m.map fun p => p.1.str).Nodup ∧ ∀ p ∈ m, UniqueLabels p.2 ∧ NoEmptyLabels p.2

theorem blocks_eq_iff_contents {m m' : Blocks} (hm : GoodTypes m) (hm' : GoodTypes m') :
    Blocks.eq O m m' = true ↔ SameContents (BodyEq O) m m' := by
  rw [blocks_eq_iff O hm.1 hm'.1]
  refine forall_congr' fun t => ?_
  constructor
  · intro h
    constructor
    · intro p hp ht
      have h1 : HashMap.get CowStr.str t m = some p.2 := by rw [← ht]; exact get_of_mem (borrow := CowStr.str) hp hm.1
      rw [h1] at h
      cases h2 : HashMap.get CowStr.str t m' with
      | none => rw [h2] at h; exact h.elim
      | some d =>
        rw [h2] at h
        obtain ⟨k, hk, hkt⟩ := get_some h2
        exact ⟨(k, d), hk, hkt, (eq_iff_places O _ _ (hm.2 _ hp).1 (hm'.2 _ hk).1 (hm.2 _ hp).2 (hm'.2 _ hk).2).1 h⟩
    · intro p hp ht
      have h1 : HashMap.get CowStr.str t m' = some p.2 := by rw [← ht]; exact get_of_mem (borrow := CowStr.str) hp hm'.1
      rw [h1] at h
      cases h2 : HashMap.get CowStr.str t m with
      | none => rw [h2] at h; exact h.elim
      | some d =>
        rw [h2] at h
        obtain ⟨k, hk, hkt⟩ := get_some h2
        exact ⟨(k, d), hk, hkt, (eq_iff_places O _ _ (hm.2 _ hk).1 (hm'.2 _ hp).1 (hm.2 _ hk).2 (hm'.2 _ hp).2).1 h⟩
  · rintro ⟨h1, h2⟩
    cases h3 : HashMap.get CowStr.str t m with
    | none =>
      cases h4 : HashMap.get CowStr.str t m' with
      | none => trivial
      | some d =>
        obtain ⟨k, hk, hkt⟩ := get_some h4
        obtain ⟨p, hp, hpt, -⟩ := h2 _ hk hkt
        exact absurd hpt (hget_none.1 h3 p hp)
    | some d =>
      obtain ⟨k, hk, hkt⟩ := get_some h3
      obtain ⟨p, hp, hpt, h5⟩ := h1 _ hk hkt
      have h4 : HashMap.get CowStr.str t m' = some p.2 := by rw [← hpt]; exact get_of_mem (borrow := CowStr.str) hp hm'.1
      rw [h4]
      exact (eq_iff_places O _ _ (hm.2 _ hk).1 (hm'.2 _ hp).1 (hm.2 _ hk).2 (hm'.2 _ hp).2).2 h5
end

theorem built_noEmpty {b : BlockBody} {h : List (List BlockLabel × Body)} (hb : Built b h) : NoEmptyLabels b := by
  rcases built_filled hb with ⟨-, rfl⟩ | ⟨-, h⟩
  · intro e m hs; have := sub_body.1 hs; cases this
  · exact h.2

end Verif
