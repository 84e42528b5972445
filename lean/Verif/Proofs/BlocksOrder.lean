import Verif.Proofs.BlocksGet
/-! # Indexed blocks: hash order, label lengths, histories -/
set_option autoImplicit false

namespace Verif
open Spec

/-! ## equality up to hash order -/

theorem same_refl : ∀ b, SameBlocks b b := by
  apply BlockBody.induct
  · exact .body
  · intro e m ih
    refine .labels _ _ _ ?_
    induction m with
    | nil => exact .nil
    | cons p m ihm => exact .cons _ _ _ _ _ (ih p (by simp)) (ihm fun q hq => ih q (by simp [hq]))

theorem sameLabels_refl (m : List (BlockLabel × BlockBody)) : SameLabels m m := by
  induction m with
  | nil => exact .nil
  | cons p m ihm => exact .cons _ _ _ _ _ (same_refl _) ihm

theorem sameLabels_of_perm {m m' : List (BlockLabel × BlockBody)} (h : m.Perm m') : SameLabels m m' := by
  induction h with
  | nil => exact .nil
  | cons p _ ih => exact .cons _ _ _ _ _ (same_refl _) ih
  | swap p q m => exact .swap _ _ _ _ (sameLabels_refl m)
  | trans _ _ a b => exact .trans _ _ _ a b

section
variable {R : BlockBody → BlockBody → Prop} {L : List (BlockLabel × BlockBody) → List (BlockLabel × BlockBody) → Prop}
theorem same_induct (hb : ∀ bs, R (.body bs) (.body bs))
    (hl : ∀ e m m', SameLabels m m' → L m m' → R (.labels e m) (.labels e m')) (hnil : L [] [])
    (hcons : ∀ k b b' m m', SameBlocks b b' → SameLabels m m' → R b b' → L m m' → L ((k, b) :: m) ((k, b') :: m'))
    (hswap : ∀ p q m m', SameLabels m m' → L m m' → L (p :: q :: m) (q :: p :: m'))
    (htrans : ∀ a b c, SameLabels a b → SameLabels b c → L a b → L b c → L a c) :
    (∀ b b', SameBlocks b b' → R b b') ∧ (∀ m m', SameLabels m m' → L m m') := by
  constructor
  · intro b b' h
    exact SameBlocks.rec (motive_1 := fun b b' _ => R b b') (motive_2 := fun m m' _ => L m m') hb
      (fun e m m' h => hl e m m' h) hnil (fun k b b' m m' h1 h2 i1 i2 => hcons k b b' m m' h1 h2 i1 i2)
      (fun p q m m' h i => hswap p q m m' h i) (fun a b c h1 h2 i1 i2 => htrans a b c h1 h2 i1 i2) h
  · intro b b' h
    exact SameLabels.rec (motive_1 := fun b b' _ => R b b') (motive_2 := fun m m' _ => L m m') hb
      (fun e m m' h => hl e m m' h) hnil (fun k b b' m m' h1 h2 i1 i2 => hcons k b b' m m' h1 h2 i1 i2)
      (fun p q m m' h i => hswap p q m m' h i) (fun a b c h1 h2 i1 i2 => htrans a b c h1 h2 i1 i2) h
end

theorem same_flatIter {b b' : BlockBody} (h : SameBlocks b b') : b.flatIter.Perm b'.flatIter := by
  refine (same_induct (R := fun b b' => b.flatIter.Perm b'.flatIter)
    (L := fun m m' => (BlockBody.flatIterLabels m).Perm (BlockBody.flatIterLabels m')) ?_ ?_ ?_ ?_ ?_ ?_).1 b b' h
  · intro bs; exact .refl _
  · intro e m m' _ ih; simp only [BlockBody.flatIter]; exact ih.append_left _
  · exact .refl _
  · intro k b b' m m' _ _ i1 i2; simp only [BlockBody.flatIterLabels]; exact (i1.map _).append i2
  · intro p q m m' _ i
    obtain ⟨k, b⟩ := p; obtain ⟨k', b'⟩ := q
    simp only [BlockBody.flatIterLabels]
    rw [← List.append_assoc, ← List.append_assoc]
    exact List.perm_append_comm.append i
  · intro a b c _ _ i j; exact i.trans j

/-- the same keys, up to order -/
theorem sameLabels_keys {m m' : List (BlockLabel × BlockBody)} (h : SameLabels m m') :
    (m.map Prod.fst).Perm (m'.map Prod.fst) := by
  refine (same_induct (R := fun _ _ => True)
    (L := fun m m' => (m.map Prod.fst).Perm (m'.map Prod.fst)) ?_ ?_ ?_ ?_ ?_ ?_).2 m m' h
  · intros; trivial
  · intros; trivial
  · exact .refl _
  · intro k b b' m m' _ _ _ i; simpa using i
  · intro p q m m' _ i; simp only [List.map_cons]; exact (List.Perm.swap _ _ _).trans ((i.cons _).cons _)
  · intro a b c _ _ i j; exact i.trans j

theorem sameLabels_nil {m m' : List (BlockLabel × BlockBody)} (h : SameLabels m m') : m = [] ↔ m' = [] := by
  have := (sameLabels_keys h).length_eq
  simp only [List.length_map] at this
  rw [← List.length_eq_zero_iff, ← List.length_eq_zero_iff, this]

/-- every part of the one has a counterpart in the other -/
theorem same_sub {b b' : BlockBody} (h : SameBlocks b b') :
    (∀ c', Sub b' c' → ∃ c, Sub b c ∧ SameBlocks c c') ∧ (∀ c, Sub b c → ∃ c', Sub b' c' ∧ SameBlocks c c') := by
  refine (same_induct (R := fun b b' =>
      (∀ c', Sub b' c' → ∃ c, Sub b c ∧ SameBlocks c c') ∧ (∀ c, Sub b c → ∃ c', Sub b' c' ∧ SameBlocks c c'))
    (L := fun m m' =>
      (∀ p' ∈ m', ∀ c', Sub p'.2 c' → ∃ p ∈ m, ∃ c, Sub p.2 c ∧ SameBlocks c c') ∧
      (∀ p ∈ m, ∀ c, Sub p.2 c → ∃ p' ∈ m', ∃ c', Sub p'.2 c' ∧ SameBlocks c c')) ?_ ?_ ?_ ?_ ?_ ?_).1 b b' h
  · intro bs
    constructor <;>
    · intro c hc; rw [sub_body] at hc; subst hc; exact ⟨_, .refl _, .body _⟩
  · intro e m m' hs ih
    constructor
    · intro c' hc
      rcases sub_labels.1 hc with rfl | ⟨p', hp, hc⟩
      · exact ⟨_, .refl _, .labels _ _ _ hs⟩
      · obtain ⟨p, hp, c, h1, h2⟩ := ih.1 p' hp c' hc
        exact ⟨c, .step _ _ p _ hp h1, h2⟩
    · intro c' hc
      rcases sub_labels.1 hc with rfl | ⟨p', hp, hc⟩
      · exact ⟨_, .refl _, .labels _ _ _ hs⟩
      · obtain ⟨p, hp, c, h1, h2⟩ := ih.2 p' hp c' hc
        exact ⟨c, .step _ _ p _ hp h1, h2⟩
  · simp
  · intro k b b' m m' _ _ i1 i2
    constructor
    · intro p' hp c' hc
      rcases List.mem_cons.1 hp with rfl | hp
      · obtain ⟨c, h1, h2⟩ := i1.1 c' hc; exact ⟨_, List.mem_cons_self, c, h1, h2⟩
      · obtain ⟨p, hp, r⟩ := i2.1 p' hp c' hc; exact ⟨p, List.mem_cons_of_mem _ hp, r⟩
    · intro p' hp c' hc
      rcases List.mem_cons.1 hp with rfl | hp
      · obtain ⟨c, h1, h2⟩ := i1.2 c' hc; exact ⟨_, List.mem_cons_self, c, h1, h2⟩
      · obtain ⟨p, hp, r⟩ := i2.2 p' hp c' hc; exact ⟨p, List.mem_cons_of_mem _ hp, r⟩
  · intro p q m m' _ i
    constructor
    · intro p' hp c' hc
      rcases List.mem_cons.1 hp with rfl | hp
      · exact ⟨p', by simp, c', hc, same_refl _⟩
      rcases List.mem_cons.1 hp with rfl | hp
      · exact ⟨p', by simp, c', hc, same_refl _⟩
      obtain ⟨p, hp, r⟩ := i.1 p' hp c' hc; exact ⟨p, by simp [hp], r⟩
    · intro p' hp c' hc
      rcases List.mem_cons.1 hp with rfl | hp
      · exact ⟨p', by simp, c', hc, same_refl _⟩
      rcases List.mem_cons.1 hp with rfl | hp
      · exact ⟨p', by simp, c', hc, same_refl _⟩
      obtain ⟨p, hp, r⟩ := i.2 p' hp c' hc; exact ⟨p, by simp [hp], r⟩
  · intro a b c _ _ i j
    have htr : ∀ {x y z}, SameBlocks x y → SameBlocks y z → SameBlocks x z := by
      intro x y z h1 h2
      cases h1 with
      | body => exact h2
      | labels e m m' h1 => cases h2 with | labels _ _ m'' h2 => exact .labels _ _ _ (.trans _ _ _ h1 h2)
    constructor
    · intro p hp x hx
      obtain ⟨p, hp, y, hy, h1⟩ := j.1 p hp x hx
      obtain ⟨p, hp, z, hz, h2⟩ := i.1 p hp y hy
      exact ⟨p, hp, z, hz, htr h2 h1⟩
    · intro p hp x hx
      obtain ⟨p, hp, y, hy, h1⟩ := i.2 p hp x hx
      obtain ⟨p, hp, z, hz, h2⟩ := j.2 p hp y hy
      exact ⟨p, hp, z, hz, htr h1 h2⟩

theorem same_trans {x y z : BlockBody} (h1 : SameBlocks x y) (h2 : SameBlocks y z) : SameBlocks x z := by
  cases h1 with
  | body => exact h2
  | labels e m m' h1 => cases h2 with | labels _ _ m'' h2 => exact .labels _ _ _ (.trans _ _ _ h1 h2)

theorem same_symm {b b' : BlockBody} (h : SameBlocks b b') : SameBlocks b' b := by
  refine (same_induct (R := fun b b' => SameBlocks b' b) (L := fun m m' => SameLabels m' m) ?_ ?_ ?_ ?_ ?_ ?_).1 b b' h
  · exact .body
  · intro e m m' _ i; exact .labels _ _ _ i
  · exact .nil
  · intro k b b' m m' _ _ i j; exact .cons _ _ _ _ _ i j
  · intro p q m m' _ i; exact .swap _ _ _ _ i
  · intro a b c _ _ i j; exact .trans _ _ _ j i

/-- a property of all hash maps that depends on their keys up to order only is preserved -/
theorem same_labels_prop {Q : List (BlockLabel × BlockBody) → Prop}
    (hq : ∀ m m', (m.map Prod.fst).Perm (m'.map Prod.fst) → Q m → Q m') {b b' : BlockBody} (h : SameBlocks b b')
    (hb : ∀ e m, Sub b (.labels e m) → Q m) : ∀ e m, Sub b' (.labels e m) → Q m := by
  intro e m hs
  obtain ⟨c, h1, h2⟩ := (same_sub h).1 _ hs
  cases h2 with
  | labels _ m0 _ h2 => exact hq _ _ (sameLabels_keys h2) (hb e m0 h1)

theorem same_uniqueLabels {b b' : BlockBody} (h : SameBlocks b b') (hb : UniqueLabels b) : UniqueLabels b' := by
  refine same_labels_prop (Q := fun m => (m.map fun p : BlockLabel × BlockBody => p.1.norm).Nodup) ?_ h hb
  intro m m' hp hn
  have := hp.map BlockLabel.norm
  simp only [List.map_map] at this
  exact (this.nodup_iff).1 hn

theorem same_uniqueTexts {b b' : BlockBody} (h : SameBlocks b b') (hb : UniqueTexts b) : UniqueTexts b' := by
  refine same_labels_prop (Q := fun m => (m.map fun p : BlockLabel × BlockBody => p.1.text).Nodup) ?_ h hb
  intro m m' hp hn
  have := hp.map BlockLabel.text
  simp only [List.map_map] at this
  exact (this.nodup_iff).1 hn

theorem same_filled {b b' : BlockBody} (h : SameBlocks b b') (hb : Filled b) : Filled b' := by
  constructor
  · intro bs hs
    obtain ⟨c, h1, h2⟩ := (same_sub h).1 _ hs
    cases h2
    exact hb.1 bs h1
  · refine same_labels_prop (Q := fun m => m ≠ []) ?_ h hb.2
    intro m m' hp hn h0
    subst h0
    have := hp.length_eq
    simp at this
    exact hn this

theorem same_mixed {b b' : BlockBody} (h : SameBlocks b b') : Mixed b ↔ Mixed b' := by
  have key : ∀ {b b'}, SameBlocks b b' → Mixed b → Mixed b' := by
    rintro b b' h ⟨e, m, hs, he, hm⟩
    obtain ⟨c, h1, h2⟩ := (same_sub h).2 _ hs
    cases h2 with
    | labels _ _ m' h2 => exact ⟨e, m', h1, he, fun h0 => hm ((sameLabels_nil h2).2 h0)⟩
  exact ⟨key h, key (same_symm h)⟩

theorem same_append {ls : List BlockLabel} {x : Body} : ∀ {b b' : BlockBody}, SameBlocks b b' → UniqueLabels b →
    SameBlocks (b.append ls x) (b'.append ls x) := by
  induction ls with
  | nil =>
    intro b b' h _
    cases h with
    | body => exact same_refl _
    | labels e m m' h => simp only [BlockBody.append]; exact .labels _ _ _ h
  | cons l ls ih =>
    intro b b' h hu
    cases h with
    | body => exact same_refl _
    | labels e m m' h =>
      simp only [BlockBody.append]
      refine .labels _ _ _ ?_
      refine (same_induct (R := fun _ _ => True) (L := fun m m' => (m.map fun p => p.1.norm).Nodup →
        (∀ p ∈ m, UniqueLabels p.2) → (∀ p ∈ m', UniqueLabels p.2) →
        SameLabels (HashMap.upsert BlockLabel.norm l (.body [x]) (fun b => b.append ls x) m)
          (HashMap.upsert BlockLabel.norm l (.body [x]) (fun b => b.append ls x) m')) ?_ ?_ ?_ ?_ ?_ ?_).2 m m' h
          (hu _ _ (.refl _)) (fun p hp => hu.child hp)
          (fun p hp => (same_uniqueLabels (.labels e _ _ h) hu).child hp)
      · intros; trivial
      · intros; trivial
      · intros; exact sameLabels_refl _
      · intro k b b' m m' hb hm _ i hn h1 h2
        simp only [HashMap.upsert]
        split
        · exact .cons _ _ _ _ _ (ih hb (h1 (k, b) (by simp))) hm
        · exact .cons _ _ _ _ _ hb (i (List.nodup_cons.1 hn).2 (fun p hp => h1 p (by simp [hp]))
            (fun p hp => h2 p (by simp [hp])))
      · intro p q m m' hm i hn h1 h2
        obtain ⟨k, b⟩ := p; obtain ⟨k', b'⟩ := q
        simp only [List.map_cons, List.nodup_cons, List.mem_cons, not_or] at hn
        simp only [HashMap.upsert]
        by_cases e1 : k.norm = l.norm
        · have e2 : k'.norm ≠ l.norm := by rw [← e1]; exact fun h => hn.1.1 h.symm
          simp only [e1, e2, if_true, if_false]
          exact .swap _ _ _ _ hm
        · by_cases e2 : k'.norm = l.norm
          · simp only [e1, e2, if_true, if_false]
            exact .swap _ _ _ _ hm
          · simp only [e1, e2, if_false]
            exact .swap _ _ _ _ (i hn.2.2 (fun p hp => h1 p (by simp [hp])) (fun p hp => h2 p (by simp [hp])))
      · intro a b c hab hbc i j hn h1 h2
        have hn' : (b.map fun p => p.1.norm).Nodup := by
          have := (sameLabels_keys hab).map BlockLabel.norm
          simp only [List.map_map] at this
          exact (this.nodup_iff).1 hn
        have h3 : ∀ p ∈ b, UniqueLabels p.2 := fun p hp =>
          (same_uniqueLabels (.labels [] _ _ hab) (uniqueLabels_labels hn h1)).child hp
        exact .trans _ _ _ (i hn h1 h3) (j hn' h3 h2)

theorem sameLabels_get {m m' : List (BlockLabel × BlockBody)} (h : SameLabels m m')
    (hn : (m.map fun p => p.1.text).Nodup) (t : Str) :
    (HashMap.get BlockLabel.text t m = none ∧ HashMap.get BlockLabel.text t m' = none) ∨
    ∃ c c', HashMap.get BlockLabel.text t m = some c ∧ HashMap.get BlockLabel.text t m' = some c' ∧ SameBlocks c c' := by
  refine (same_induct (R := fun _ _ => True) (L := fun m m' => (m.map fun p => p.1.text).Nodup →
    (HashMap.get BlockLabel.text t m = none ∧ HashMap.get BlockLabel.text t m' = none) ∨
    ∃ c c', HashMap.get BlockLabel.text t m = some c ∧ HashMap.get BlockLabel.text t m' = some c' ∧ SameBlocks c c')
    ?_ ?_ ?_ ?_ ?_ ?_).2 m m' h hn
  · intros; trivial
  · intros; trivial
  · intro _; exact .inl ⟨rfl, rfl⟩
  · intro k b b' m m' hb hm _ i hn
    simp only [HashMap.get]
    split
    · exact .inr ⟨_, _, rfl, rfl, hb⟩
    · exact i (List.nodup_cons.1 hn).2
  · intro p q m m' hm i hn
    obtain ⟨k, b⟩ := p; obtain ⟨k', b'⟩ := q
    simp only [List.map_cons, List.nodup_cons, List.mem_cons, not_or] at hn
    simp only [HashMap.get]
    by_cases e1 : k.text = t
    · have e2 : k'.text ≠ t := by rw [← e1]; exact fun h => hn.1.1 h.symm
      simp only [e1, e2, if_true, if_false]
      exact .inr ⟨_, _, rfl, rfl, same_refl _⟩
    · by_cases e2 : k'.text = t
      · simp only [e1, e2, if_true, if_false]
        exact .inr ⟨_, _, rfl, rfl, same_refl _⟩
      · simp only [e1, e2, if_false]
        exact i hn.2.2
  · intro a b c hab hbc i j hn
    have hn' : (b.map fun p => p.1.text).Nodup := by
      have := (sameLabels_keys hab).map BlockLabel.text
      simp only [List.map_map] at this
      exact (this.nodup_iff).1 hn
    rcases i hn with ⟨i1, i2⟩ | ⟨x, y, i1, i2, i3⟩
    · rcases j hn' with ⟨j1, j2⟩ | ⟨y, z, j1, j2, j3⟩
      · exact .inl ⟨i1, j2⟩
      · rw [i2] at j1; cases j1
    · rcases j hn' with ⟨j1, j2⟩ | ⟨y', z, j1, j2, j3⟩
      · rw [i2] at j1; cases j1
      · rw [i2] at j1; injection j1 with j1; subst j1
        exact .inr ⟨x, z, i1, j2, same_trans i3 j3⟩

theorem same_get : ∀ {ts : List Str} {b b' : BlockBody}, SameBlocks b b' → UniqueTexts b →
    (b.get ts = none ∧ b'.get ts = none) ∨ ∃ c c', b.get ts = some c ∧ b'.get ts = some c' ∧ SameBlocks c c' := by
  intro ts
  induction ts with
  | nil => intro b b' h _; exact .inr ⟨b, b', by simp [BlockBody.get], by simp [BlockBody.get], h⟩
  | cons t ts ih =>
    intro b b' h hu
    cases h with
    | body => exact .inl ⟨rfl, rfl⟩
    | labels e m m' h =>
      simp only [BlockBody.get]
      rcases sameLabels_get h (hu _ _ (.refl _)) t with ⟨h1, h2⟩ | ⟨c, c', h1, h2, h3⟩
      · rw [h1, h2]; exact .inl ⟨rfl, rfl⟩
      · rw [h1, h2]
        obtain ⟨k, hk, -⟩ := get_some h1
        exact ih h3 (hu.child hk)

theorem same_bodiesAt {ts : List Str} {b b' : BlockBody} (h : SameBlocks b b') (hu : UniqueTexts b) :
    bodiesAt b ts = bodiesAt b' ts := by
  unfold bodiesAt
  rcases same_get (ts := ts) h hu with ⟨h1, h2⟩ | ⟨c, c', h1, h2, h3⟩
  · rw [h1, h2]
  · rw [h1, h2]; cases h3 <;> rfl

/-! ## histories -/

theorem built_uniqueLabels {b : BlockBody} {h : List (List BlockLabel × Body)} (hb : Built b h) : UniqueLabels b := by
  induction hb with
  | default => exact uniqueLabels_body _
  | append b h ls x _ ih => exact uniqueLabels_append ih
  | reorder b b' h _ hs ih => exact same_uniqueLabels hs ih

theorem built_filled {b : BlockBody} {h : List (List BlockLabel × Body)} (hb : Built b h) :
    (h = [] ∧ b = .default) ∨ (h ≠ [] ∧ Filled b) := by
  induction hb with
  | default => exact .inl ⟨rfl, rfl⟩
  | append b h ls x _ ih => exact .inr ⟨by simp, filled_append (ih.imp And.right And.right)⟩
  | reorder b b' h _ hs ih =>
    rcases ih with ⟨h1, rfl⟩ | ⟨h1, h2⟩
    · cases hs; exact .inl ⟨h1, rfl⟩
    · exact .inr ⟨h1, same_filled hs h2⟩

theorem built_bodies {b : BlockBody} {h : List (List BlockLabel × Body)} (hb : Built b h) :
    (b.flatIter.map Prod.snd).Perm (h.map Prod.snd) := by
  induction hb with
  | default => exact .refl _
  | append b h ls x _ ih =>
    rw [List.map_append]
    exact append_bodies.trans ((ih.cons x).trans (by simpa using (List.perm_append_comm (l₁ := [x]))))
  | reorder b b' h _ hs ih => exact ((same_flatIter hs).map _).symm.trans ih

/-- every label in the tree comes from somewhere -/
def LabelsIn (S : BlockLabel → Prop) (b : BlockBody) : Prop := ∀ e m, Sub b (.labels e m) → ∀ p ∈ m, S p.1

theorem LabelsIn.child {S : BlockLabel → Prop} {e : List Body} {m : List (BlockLabel × BlockBody)}
    (h : LabelsIn S (.labels e m)) {p : BlockLabel × BlockBody} (hp : p ∈ m) : LabelsIn S p.2 :=
  fun e' m' hs => h e' m' (.step _ _ p _ hp hs)

theorem labelsIn_labels {S : BlockLabel → Prop} {e : List Body} {m : List (BlockLabel × BlockBody)}
    (h : ∀ p ∈ m, S p.1 ∧ LabelsIn S p.2) : LabelsIn S (.labels e m) := by
  intro e' m' hs
  rcases sub_labels.1 hs with h' | ⟨p, hp, h'⟩
  · cases h'; exact fun p hp => (h p hp).1
  · exact (h p hp).2 e' m' h'

theorem labelsIn_body {S : BlockLabel → Prop} (bs : List Body) : LabelsIn S (.body bs) := by
  intro e m hs; rw [sub_body] at hs; cases hs

theorem labelsIn_append {S : BlockLabel → Prop} {ls : List BlockLabel} {x : Body} (hS : ∀ l ∈ ls, S l) :
    ∀ {b : BlockBody}, LabelsIn S b → LabelsIn S (b.append ls x) := by
  induction ls with
  | nil =>
    intro b h
    cases b with
    | body bs => exact labelsIn_body _
    | labels e m => exact labelsIn_labels fun p hp => ⟨h _ _ (.refl _) p hp, h.child hp⟩
  | cons l ls ih =>
    intro b h
    have ih := @ih fun l hl => hS l (by simp [hl])
    cases b with
    | body bs =>
      rw [BlockBody.append]
      refine labelsIn_labels fun p hp => ?_
      simp only [List.mem_singleton] at hp
      subst hp
      exact ⟨hS l (by simp), ih (labelsIn_body _)⟩
    | labels e m =>
      rw [BlockBody.append]
      rcases upsert_cases (norm := BlockLabel.norm) l (.body [x]) (fun b => b.append ls x) m with
        ⟨pre, k', v, post, rfl, h1, h2, h3⟩ | ⟨h1, h2⟩
      · rw [h3]
        refine labelsIn_labels fun p hp => ?_
        simp only [List.mem_append, List.mem_cons] at hp
        rcases hp with hp | rfl | hp
        · exact ⟨h _ _ (.refl _) p (by simp [hp]), h.child (by simp [hp])⟩
        · exact ⟨h _ _ (.refl _) (k', v) (by simp), ih (h.child (p := (k', v)) (by simp))⟩
        · exact ⟨h _ _ (.refl _) p (by simp [hp]), h.child (by simp [hp])⟩
      · rw [h2]
        refine labelsIn_labels fun p hp => ?_
        simp only [List.mem_append, List.mem_singleton] at hp
        rcases hp with hp | rfl
        · exact ⟨h _ _ (.refl _) p hp, h.child hp⟩
        · exact ⟨hS l (by simp), labelsIn_body _⟩

theorem built_labelsIn {b : BlockBody} {h : List (List BlockLabel × Body)} (hb : Built b h) :
    LabelsIn (fun l => ∃ p ∈ h, l ∈ p.1) b := by
  induction hb with
  | default => exact labelsIn_body _
  | append b h ls x _ ih =>
    refine labelsIn_append (fun l hl => ⟨(ls, x), by simp, hl⟩) fun e m hs p hp => ?_
    obtain ⟨p', h1, h2⟩ := ih e m hs p hp
    exact ⟨p', by simp [h1], h2⟩
  | reorder b b' h _ hs ih =>
    refine same_labels_prop (Q := fun m => ∀ p ∈ m, ∃ q ∈ h, p.1 ∈ q.1) ?_ hs ih
    intro m m' hp hq p hm
    have : p.1 ∈ m.map Prod.fst := hp.mem_iff.2 (List.mem_map_of_mem hm)
    obtain ⟨p0, h1, h2⟩ := List.mem_map.1 this
    rw [← h2]; exact hq p0 h1

theorem built_uniqueTexts {b : BlockBody} {h : List (List BlockLabel × Body)} (hb : Built b h)
    (hc : ConsistentLabels h) : UniqueTexts b := by
  intro e m hs
  have hn := built_uniqueLabels hb e m hs
  have hl := built_labelsIn hb e m hs
  clear hs hb
  induction m with
  | nil => simp
  | cons p m ih =>
    simp only [List.map_cons, List.nodup_cons] at hn ⊢
    refine ⟨?_, ih hn.2 fun p hp => hl p (by simp [hp])⟩
    intro hm
    obtain ⟨q, hq, he⟩ := List.mem_map.1 hm
    obtain ⟨a, ha, ha'⟩ := hl p (by simp)
    obtain ⟨b, hb, hb'⟩ := hl q (by simp [hq])
    exact hn.1 (List.mem_map.2 ⟨q, hq, hc b hb _ hb' a ha _ ha' he⟩)

/-! ## label lengths -/

theorem btreeInsert_mem {x n : Nat} {l : List Nat} : n ∈ btreeInsert x l ↔ n = x ∨ n ∈ l := by
  induction l with
  | nil => simp [btreeInsert]
  | cons y l ih =>
    simp only [btreeInsert]
    split
    · simp
    · split
      · rename_i h; subst h; simp
      · simp only [List.mem_cons, ih]
        constructor
        · rintro (h | h | h) <;> simp [h]
        · rintro (h | h | h) <;> simp [h]

theorem btreeInsert_sorted {x : Nat} {l : List Nat} (h : l.Pairwise (· < ·)) : (btreeInsert x l).Pairwise (· < ·) := by
  induction l with
  | nil => simp [btreeInsert]
  | cons y l ih =>
    simp only [List.pairwise_cons] at h
    simp only [btreeInsert]
    split
    · rename_i hlt
      simp only [List.pairwise_cons, List.mem_cons]
      refine ⟨?_, h.1, h.2⟩
      rintro z (rfl | hz)
      · exact hlt
      · exact Nat.lt_trans hlt (h.1 z hz)
    · split
      · simp only [List.pairwise_cons]; exact h
      · simp only [List.pairwise_cons]
        refine ⟨fun z hz => ?_, ih h.2⟩
        rcases btreeInsert_mem.1 hz with rfl | hz
        · omega
        · exact h.1 z hz

theorem btreeCollect_mem {l : List Nat} {n : Nat} : n ∈ btreeCollect l ↔ n ∈ l := by
  have : ∀ (l s : List Nat), n ∈ l.foldl (fun s x => btreeInsert x s) s ↔ n ∈ s ∨ n ∈ l := by
    intro l
    induction l with
    | nil => simp
    | cons x l ih =>
      intro s
      simp only [List.foldl_cons, ih, btreeInsert_mem, List.mem_cons]
      constructor
      · rintro ((h | h) | h) <;> simp [h]
      · rintro (h | h | h) <;> simp [h]
  rw [btreeCollect, this]; simp

theorem btreeCollect_sorted (l : List Nat) : (btreeCollect l).Pairwise (· < ·) := by
  have : ∀ (l s : List Nat), s.Pairwise (· < ·) → (l.foldl (fun s x => btreeInsert x s) s).Pairwise (· < ·) := by
    intro l
    induction l with
    | nil => intro s h; exact h
    | cons x l ih => intro s h; exact ih _ (btreeInsert_sorted h)
  exact this l [] .nil

theorem sorted_ext {a b : List Nat} (ha : a.Pairwise (· < ·)) (hb : b.Pairwise (· < ·)) (h : ∀ n, n ∈ a ↔ n ∈ b) :
    a = b := by
  induction a generalizing b with
  | nil =>
    cases b with
    | nil => rfl
    | cons y b => exact absurd ((h y).2 (by simp)) (by simp)
  | cons x a ih =>
    cases b with
    | nil => exact absurd ((h x).1 (by simp)) (by simp)
    | cons y b =>
      simp only [List.pairwise_cons] at ha hb
      have hxy : x = y := by
        have h1 := (h x).1 (by simp)
        have h2 := (h y).2 (by simp)
        simp only [List.mem_cons] at h1 h2
        rcases h1 with rfl | h1
        · rfl
        rcases h2 with rfl | h2
        · rfl
        have := ha.1 y h2; have := hb.1 x h1; omega
      subst hxy
      congr 1
      refine ih ha.2 hb.2 fun n => ?_
      have hn := h n
      simp only [List.mem_cons] at hn
      constructor
      · intro hm
        rcases hn.1 (.inr hm) with rfl | hm'
        · have := ha.1 n hm; omega
        · exact hm'
      · intro hm
        rcases hn.2 (.inr hm) with rfl | hm'
        · have := hb.1 n hm; omega
        · exact hm'

theorem labelLensMap_eq (m : List (BlockLabel × BlockBody)) :
    BlockBody.labelLensMap m = m.flatMap fun p => p.2.labelLens.map fun n => n + 1 := by
  induction m with
  | nil => rfl
  | cons p m ih => obtain ⟨k, b⟩ := p; simp [BlockBody.labelLensMap, ih]

theorem labelLens_sorted (b : BlockBody) : b.labelLens.Pairwise (· < ·) := by
  cases b with
  | body => exact btreeCollect_sorted _
  | labels e m => simp only [BlockBody.labelLens]; split <;> exact btreeCollect_sorted _

theorem labelLens_labels {e : List Body} {m : List (BlockLabel × BlockBody)} {n : Nat} :
    n ∈ (BlockBody.labels e m).labelLens ↔ (n = 0 ∧ e ≠ []) ∨ ∃ p ∈ m, ∃ k ∈ p.2.labelLens, n = k + 1 := by
  simp only [BlockBody.labelLens, labelLensMap_eq]
  split
  · rename_i h
    simp only [List.isEmpty_iff] at h
    simp only [h, btreeCollect_mem, List.mem_flatMap, List.mem_map, ne_eq, not_true, and_false, false_or]
    constructor <;> rintro ⟨p, hp, k, hk, he⟩ <;> exact ⟨p, hp, k, hk, he.symm⟩
  · rename_i h
    simp only [List.isEmpty_iff] at h
    simp only [h, btreeCollect_mem, List.mem_append, List.mem_flatMap, List.mem_map, List.mem_singleton, ne_eq,
      not_false_eq_true, and_true]
    constructor
    · rintro (⟨p, hp, k, hk, he⟩ | h)
      · exact .inr ⟨p, hp, k, hk, he.symm⟩
      · exact .inl h
    · rintro (h | ⟨p, hp, k, hk, he⟩)
      · exact .inr h
      · exact .inl ⟨p, hp, k, hk, he.symm⟩

theorem labelLens_mem : ∀ b : BlockBody, Filled b → ∀ n, n ∈ b.labelLens ↔ ∃ q ∈ b.flatIter, q.1.length = n := by
  apply BlockBody.induct (P := fun b => Filled b → ∀ n, n ∈ b.labelLens ↔ ∃ q ∈ b.flatIter, q.1.length = n)
  · intro bs hf n
    have hne := hf.1 bs (.refl _)
    obtain ⟨x, bs', rfl⟩ : ∃ x l, bs = x :: l := by
      cases bs with
      | nil => exact absurd rfl hne
      | cons x l => exact ⟨x, l, rfl⟩
    simp only [BlockBody.labelLens, btreeCollect_mem, List.mem_singleton, BlockBody.flatIter]
    constructor
    · rintro rfl; exact ⟨([], x), by simp, rfl⟩
    · rintro ⟨q, hq, rfl⟩
      obtain ⟨y, -, rfl⟩ := List.mem_map.1 hq
      rfl
  · intro e m ih hf n
    rw [labelLens_labels]
    simp only [BlockBody.flatIter, flatIterLabels_eq]
    constructor
    · rintro (⟨rfl, he⟩ | ⟨p, hp, k, hk, rfl⟩)
      · cases e with
        | nil => exact absurd rfl he
        | cons x e => exact ⟨([], x), by simp, rfl⟩
      · obtain ⟨q, hq, rfl⟩ := (ih p hp (hf.child hp) k).1 hk
        refine ⟨(p.1.text :: q.1, q.2), ?_, by simp⟩
        simp only [List.mem_append, List.mem_flatMap, List.mem_map]
        exact .inr ⟨p, hp, q, hq, rfl⟩
    · rintro ⟨q, hq, rfl⟩
      rcases List.mem_append.1 hq with hq | hq
      · obtain ⟨x, hx, rfl⟩ := List.mem_map.1 hq
        exact .inl ⟨rfl, by rintro rfl; cases hx⟩
      · simp only [List.mem_flatMap, List.mem_map] at hq
        obtain ⟨p, hp, q', hq', rfl⟩ := hq
        exact .inr ⟨p, hp, q'.1.length, (ih p hp (hf.child hp) _).2 ⟨q', hq', rfl⟩, by simp⟩

theorem same_labelLens {b b' : BlockBody} (h : SameBlocks b b') : b.labelLens = b'.labelLens := by
  refine (same_induct (R := fun b b' => b.labelLens = b'.labelLens)
    (L := fun m m' => ∀ n, (∃ p ∈ m, ∃ k ∈ p.2.labelLens, n = k + 1) ↔ ∃ p ∈ m', ∃ k ∈ p.2.labelLens, n = k + 1)
    ?_ ?_ ?_ ?_ ?_ ?_).1 b b' h
  · intro bs; rfl
  · intro e m m' _ ih
    refine sorted_ext (labelLens_sorted _) (labelLens_sorted _) fun n => ?_
    rw [labelLens_labels, labelLens_labels, ih]
  · intro n; exact Iff.rfl
  · intro k b b' m m' _ _ i1 i2 n
    simp only [List.mem_cons, exists_eq_or_imp, i1, i2]
  · intro p q m m' _ i n
    simp only [List.mem_cons, exists_eq_or_imp, i]
    constructor
    · rintro (h | h | h) <;> simp [h]
    · rintro (h | h | h) <;> simp [h]
  · intro a b c _ _ i j n; rw [i, j]

theorem mixed_body {bs : List Body} : ¬ Mixed (.body bs) := by
  rintro ⟨e, m, hs, -⟩; rw [sub_body] at hs; cases hs

theorem mixed_labels {e : List Body} {m : List (BlockLabel × BlockBody)} :
    Mixed (.labels e m) ↔ (e ≠ [] ∧ m ≠ []) ∨ ∃ p ∈ m, Mixed p.2 := by
  constructor
  · rintro ⟨e', m', hs, h⟩
    rcases sub_labels.1 hs with h' | ⟨p, hp, h'⟩
    · cases h'; exact .inl h
    · exact .inr ⟨p, hp, e', m', h', h⟩
  · rintro (h | ⟨p, hp, e', m', hs, h⟩)
    · exact ⟨e, m, .refl _, h⟩
    · exact ⟨e', m', .step _ _ p _ hp hs, h⟩

theorem labelLensUniform_eq : ∀ b : BlockBody,
    (Mixed b → b.labelLensUniform = none) ∧ (¬ Mixed b → b.labelLensUniform = some 0) := by
  apply BlockBody.induct
  · intro bs; exact ⟨fun h => absurd h mixed_body, fun _ => rfl⟩
  · intro e m ih
    rw [mixed_labels]
    have hall : ∀ m' : List (BlockLabel × BlockBody), (∀ p ∈ m', p ∈ m) →
        (BlockBody.allUniform (some 0) m' = true ↔ ∀ p ∈ m', ¬ Mixed p.2) := by
      intro m'
      induction m' with
      | nil => intro _; simp [BlockBody.allUniform]
      | cons p m' ihm =>
        intro hs
        obtain ⟨k, b⟩ := p
        have ihm := ihm fun p hp => hs p (by simp [hp])
        have hb := ih (k, b) (hs _ (by simp))
        simp only [BlockBody.allUniform]
        by_cases hm : Mixed b
        · simp [hb.1 hm, hm]
        · simp only [hb.2 hm, bne_self_eq_false, Bool.false_eq_true, if_false, ihm, List.mem_cons, forall_eq_or_imp,
            hm, not_false_eq_true, true_and]
    cases m with
    | nil => simp [BlockBody.labelLensUniform]
    | cons p m =>
      obtain ⟨k, b⟩ := p
      have hb := ih (k, b) (by simp)
      have hall := hall m fun p hp => by simp [hp]
      cases e with
      | cons x e => simp [BlockBody.labelLensUniform]
      | nil =>
        simp only [BlockBody.labelLensUniform, List.isEmpty_nil, Bool.not_true, Bool.and_false, Bool.false_eq_true,
          if_false, ne_eq, not_true, false_and, false_or, List.mem_cons, exists_eq_or_imp]
        by_cases hm : Mixed b
        · simp [hb.1 hm, hm]
        · rw [hb.2 hm]
          by_cases ha : ∀ p ∈ m, ¬ Mixed p.2
          · have : BlockBody.allUniform (some 0) m = true := hall.2 ha
            simp only [this, if_true, hm, false_or]
            exact ⟨fun ⟨p, hp, h⟩ => absurd h (ha p hp), fun _ => trivial⟩
          · have : BlockBody.allUniform (some 0) m ≠ true := fun h => ha (hall.1 h)
            simp only [this, hm, false_or]
            refine ⟨fun _ => by simp, fun h => absurd (fun p hp hm => h ⟨p, hp, hm⟩) ha⟩

theorem filled_flatIter : ∀ b : BlockBody, Filled b → b.flatIter ≠ [] := by
  intro b hf h0
  have : b.labelLens = [] := by
    cases hl : b.labelLens with
    | nil => rfl
    | cons n l =>
      obtain ⟨q, hq, -⟩ := (labelLens_mem b hf n).1 (by simp [hl])
      rw [h0] at hq; cases hq
  revert hf this
  refine BlockBody.induct (P := fun b => Filled b → b.labelLens = [] → False) ?_ ?_ b
  · intro bs _ h
    have : (0 : Nat) ∈ (BlockBody.body bs).labelLens := by simp [BlockBody.labelLens, btreeCollect_mem]
    rw [h] at this; cases this
  · intro e m ih hf h
    have hm := hf.2 e m (.refl _)
    cases m with
    | nil => exact hm rfl
    | cons p m =>
      refine ih p (by simp) (hf.child (by simp)) ?_
      cases hl : p.2.labelLens with
      | nil => rfl
      | cons n l =>
        have : n + 1 ∈ (BlockBody.labels e (p :: m)).labelLens :=
          labelLens_labels.2 (.inr ⟨p, by simp, n, by simp [hl], rfl⟩)
        rw [h] at this; cases this

/-- blocks end at an inner place iff some label path is a proper prefix of another -/
theorem mixed_prefix : ∀ b : BlockBody, Filled b → UniqueTexts b →
    (Mixed b ↔ ∃ p ∈ b.flatIter, ∃ q ∈ b.flatIter, p.1 <+: q.1 ∧ p.1 ≠ q.1) := by
  refine BlockBody.induct (P := fun b => Filled b → UniqueTexts b →
    (Mixed b ↔ ∃ p ∈ b.flatIter, ∃ q ∈ b.flatIter, p.1 <+: q.1 ∧ p.1 ≠ q.1)) ?_ ?_
  · intro bs _ _
    refine ⟨fun h => absurd h mixed_body, ?_⟩
    rintro ⟨p, hp, q, hq, -, h⟩
    simp only [BlockBody.flatIter, List.mem_map] at hp hq
    obtain ⟨x, -, rfl⟩ := hp; obtain ⟨y, -, rfl⟩ := hq
    exact absurd rfl h
  · intro e m ih hf hu
    rw [mixed_labels]
    simp only [BlockBody.flatIter, flatIterLabels_eq]
    constructor
    · rintro (⟨he, hm⟩ | ⟨p, hp, hmx⟩)
      · cases e with
        | nil => exact absurd rfl he
        | cons x e =>
          cases m with
          | nil => exact absurd rfl hm
          | cons p m =>
            cases hfl : p.2.flatIter with
            | nil => exact absurd hfl (filled_flatIter _ (hf.child (by simp)))
            | cons q l =>
              refine ⟨([], x), by simp, (p.1.text :: q.1, q.2), ?_, List.nil_prefix, by simp⟩
              simp [hfl]
      · obtain ⟨a, ha, b, hb, h1, h2⟩ := (ih p hp (hf.child hp) (hu.child hp)).1 hmx
        refine ⟨(p.1.text :: a.1, a.2), ?_, (p.1.text :: b.1, b.2), ?_, ?_, ?_⟩
        · simp only [List.mem_append, List.mem_flatMap, List.mem_map]; exact .inr ⟨p, hp, a, ha, rfl⟩
        · simp only [List.mem_append, List.mem_flatMap, List.mem_map]; exact .inr ⟨p, hp, b, hb, rfl⟩
        · simpa [List.cons_prefix_cons] using h1
        · simpa using h2
    · rintro ⟨a, ha, b, hb, h1, h2⟩
      simp only [List.mem_append, List.mem_flatMap, List.mem_map] at ha hb
      rcases ha with ⟨x, hx, rfl⟩ | ⟨p, hp, a, ha, rfl⟩
      · rcases hb with ⟨y, hy, rfl⟩ | ⟨q, hq, b, hb, rfl⟩
        · exact absurd rfl h2
        · exact .inl ⟨List.ne_nil_of_mem hx, List.ne_nil_of_mem hq⟩
      · rcases hb with ⟨y, hy, rfl⟩ | ⟨q, hq, b, hb, rfl⟩
        · simp at h1
        · simp only [List.cons_prefix_cons] at h1
          have hn := hu _ _ (.refl _)
          have e1 := get_of_mem (borrow := BlockLabel.text) hp hn
          have e2 := get_of_mem (borrow := BlockLabel.text) hq hn
          rw [h1.1, e2] at e1
          injection e1 with e1
          rw [e1] at hb
          refine .inr ⟨p, hp, (ih p hp (hf.child hp) (hu.child hp)).2 ⟨a, ha, b, hb, h1.2, ?_⟩⟩
          intro he; exact h2 (by simp [h1.1, he])

end Verif
