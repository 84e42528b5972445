import Verif.Spec.Blocks
/-! # Indexed blocks -/
set_option autoImplicit false

namespace Verif
open Spec

/-! ## induction -/

section
variable {P : BlockBody → Prop} (hb : ∀ bs, P (.body bs)) (hl : ∀ e m, (∀ p ∈ m, P p.2) → P (.labels e m))
include hb hl
set_option linter.unusedSectionVars false
mutual
theorem BlockBody.induct : ∀ b, P b
  | .body bs => hb bs
  | .labels e m => hl e m (BlockBody.inductLabels m)
theorem BlockBody.inductLabels : ∀ m : List (BlockLabel × BlockBody), ∀ p ∈ m, P p.2
  | [] => by simp
  | (k, b) :: m => List.forall_mem_cons.mpr ⟨BlockBody.induct b, BlockBody.inductLabels m⟩
end
end

theorem flatIterLabels_eq (m : List (BlockLabel × BlockBody)) :
    BlockBody.flatIterLabels m = m.flatMap fun p => p.2.flatIter.map fun q => (p.1.text :: q.1, q.2) := by
  induction m with
  | nil => rfl
  | cons p m ih => obtain ⟨k, b⟩ := p; simp [BlockBody.flatIterLabels, ih]

theorem lenBlocksFold_eq (acc : Nat) (m : List (BlockLabel × BlockBody)) :
    BlockBody.lenBlocksFold acc m = acc + (m.map fun p => p.2.lenBlocks).sum := by
  induction m generalizing acc with
  | nil => simp [BlockBody.lenBlocksFold]
  | cons p m ih => obtain ⟨k, b⟩ := p; simp [BlockBody.lenBlocksFold, ih]; omega

theorem lenBlocks_eq : ∀ b : BlockBody, b.lenBlocks = b.flatIter.length := by
  apply BlockBody.induct
  · intro bs; simp [BlockBody.lenBlocks, BlockBody.flatIter]
  · intro e m ih
    simp only [BlockBody.lenBlocks, BlockBody.flatIter, lenBlocksFold_eq, flatIterLabels_eq, List.length_append,
      List.length_map, List.length_flatMap, Nat.zero_add]
    congr 2
    exact List.map_congr_left ih

/-! ## hash maps -/

section
variable {K V N : Type} [DecidableEq N] {norm : K → N}

theorem upsert_cases (k : K) (new : V) (upd : V → V) (m : HashMap K V) :
    (∃ pre k' v post, m = pre ++ (k', v) :: post ∧ norm k' = norm k ∧ (∀ p ∈ pre, norm p.1 ≠ norm k) ∧
      HashMap.upsert norm k new upd m = pre ++ (k', upd v) :: post) ∨
    ((∀ p ∈ m, norm p.1 ≠ norm k) ∧ HashMap.upsert norm k new upd m = m ++ [(k, new)]) := by
  induction m with
  | nil => exact .inr ⟨by simp, rfl⟩
  | cons p m ih =>
    obtain ⟨k', v⟩ := p
    by_cases h : norm k' = norm k
    · exact .inl ⟨[], k', v, m, rfl, h, by simp, by simp [HashMap.upsert, h]⟩
    · rcases ih with ⟨pre, k2, v2, post, rfl, h1, h2, h3⟩ | ⟨h1, h2⟩
      · exact .inl ⟨(k', v) :: pre, k2, v2, post, rfl, h1, by simpa using ⟨h, by simpa using h2⟩,
          by simp [HashMap.upsert, h, h3]⟩
      · exact .inr ⟨by simpa using ⟨h, by simpa using h1⟩, by simp [HashMap.upsert, h, h2]⟩

theorem get_of_mem {Q : Type} [DecidableEq Q] {borrow : K → Q} {m : HashMap K V} {p : K × V} (hp : p ∈ m)
    (hn : (m.map fun p => borrow p.1).Nodup) : HashMap.get borrow (borrow p.1) m = some p.2 := by
  induction m with
  | nil => cases hp
  | cons q m ih =>
    obtain ⟨k, v⟩ := q
    simp only [List.map_cons, List.nodup_cons] at hn
    rcases List.mem_cons.1 hp with rfl | hp
    · simp [HashMap.get]
    · have : borrow k ≠ borrow p.1 := fun h => hn.1 (by rw [h]; exact List.mem_map.2 ⟨p, hp, rfl⟩)
      simp [HashMap.get, this, ih hp hn.2]

theorem get_some {Q : Type} [DecidableEq Q] {borrow : K → Q} {q : Q} {m : HashMap K V} {v : V}
    (h : HashMap.get borrow q m = some v) : ∃ k, (k, v) ∈ m ∧ borrow k = q := by
  induction m with
  | nil => cases h
  | cons p m ih =>
    obtain ⟨k, v'⟩ := p
    simp only [HashMap.get] at h
    split at h
    · injection h with h; subst h; exact ⟨k, by simp, ‹_›⟩
    · obtain ⟨k', h1, h2⟩ := ih h; exact ⟨k', by simp [h1], h2⟩

theorem get_none {Q : Type} [DecidableEq Q] {borrow : K → Q} {q : Q} {m : HashMap K V} :
    HashMap.get borrow q m = none ↔ ∀ p ∈ m, borrow p.1 ≠ q := by
  induction m with
  | nil => simp [HashMap.get]
  | cons p m ih =>
    obtain ⟨k, v'⟩ := p
    simp only [HashMap.get]
    split
    · rename_i h; simp [h]
    · rename_i h; rw [ih]; simp [h]
end

theorem norm_text {a b : BlockLabel} (h : a.norm = b.norm) : a.text = b.text := by
  cases a <;> cases b <;> simp_all [BlockLabel.norm, BlockLabel.text]

/-! ## parts -/

theorem sub_body {bs : List Body} {c : BlockBody} : Sub (.body bs) c ↔ c = .body bs := by
  constructor
  · intro h; cases h; rfl
  · rintro rfl; exact .refl _

theorem sub_labels {e : List Body} {m : List (BlockLabel × BlockBody)} {c : BlockBody} :
    Sub (.labels e m) c ↔ c = .labels e m ∨ ∃ p ∈ m, Sub p.2 c := by
  constructor
  · intro h
    cases h with
    | refl => exact .inl rfl
    | step _ _ p _ hp h => exact .inr ⟨p, hp, h⟩
  · rintro (rfl | ⟨p, hp, h⟩)
    · exact .refl _
    · exact .step _ _ p _ hp h

theorem Spec.UniqueLabels.child {e : List Body} {m : List (BlockLabel × BlockBody)} (h : UniqueLabels (.labels e m))
    {p : BlockLabel × BlockBody} (hp : p ∈ m) : UniqueLabels p.2 :=
  fun e' m' hs => h e' m' (.step _ _ p _ hp hs)

theorem Spec.UniqueTexts.child {e : List Body} {m : List (BlockLabel × BlockBody)} (h : UniqueTexts (.labels e m))
    {p : BlockLabel × BlockBody} (hp : p ∈ m) : UniqueTexts p.2 :=
  fun e' m' hs => h e' m' (.step _ _ p _ hp hs)

theorem Spec.Filled.child {e : List Body} {m : List (BlockLabel × BlockBody)} (h : Filled (.labels e m))
    {p : BlockLabel × BlockBody} (hp : p ∈ m) : Filled p.2 :=
  ⟨fun bs hs => h.1 bs (.step _ _ p _ hp hs), fun e' m' hs => h.2 e' m' (.step _ _ p _ hp hs)⟩

theorem filled_labels {e : List Body} {m : List (BlockLabel × BlockBody)} (hm : m ≠ []) (h : ∀ p ∈ m, Filled p.2) :
    Filled (.labels e m) := by
  constructor
  · intro bs hs
    rcases sub_labels.1 hs with h' | ⟨p, hp, h'⟩
    · cases h'
    · exact (h p hp).1 bs h'
  · intro e' m' hs
    rcases sub_labels.1 hs with h' | ⟨p, hp, h'⟩
    · cases h'; exact hm
    · exact (h p hp).2 e' m' h'

theorem uniqueLabels_labels {e : List Body} {m : List (BlockLabel × BlockBody)}
    (hm : (m.map fun p => p.1.norm).Nodup) (h : ∀ p ∈ m, UniqueLabels p.2) : UniqueLabels (.labels e m) := by
  intro e' m' hs
  rcases sub_labels.1 hs with h' | ⟨p, hp, h'⟩
  · cases h'; exact hm
  · exact h p hp e' m' h'

theorem filled_append {ls : List BlockLabel} {x : Body} : ∀ {b : BlockBody}, b = .default ∨ Filled b →
    Filled (b.append ls x) := by
  induction ls with
  | nil =>
    intro b h
    cases b with
    | body bs =>
      rw [BlockBody.append]
      refine ⟨fun bs' hs => ?_, fun e m hs => ?_⟩
      · rw [sub_body] at hs; injection hs with hs; subst hs; simp
      · rw [sub_body] at hs; cases hs
    | labels e m =>
      rw [BlockBody.append]
      rcases h with h | h
      · cases h
      · exact filled_labels (h.2 e m (.refl _)) fun p hp => h.child hp
  | cons l ls ih =>
    intro b h
    cases b with
    | body bs =>
      rw [BlockBody.append]
      refine filled_labels (by simp) fun p hp => ?_
      simp only [List.mem_singleton] at hp
      subst hp
      exact ih (.inl rfl)
    | labels e m =>
      rcases h with h | h
      · cases h
      rw [BlockBody.append]
      rcases upsert_cases (norm := BlockLabel.norm) l (.body [x]) (fun b => b.append ls x) m with
        ⟨pre, k', v, post, rfl, h1, h2, h3⟩ | ⟨h1, h2⟩
      · rw [h3]
        refine filled_labels (by simp) fun p hp => ?_
        simp only [List.mem_append, List.mem_cons] at hp
        rcases hp with hp | rfl | hp
        · exact h.child (by simp [hp])
        · exact ih (.inr (h.child (p := (k', v)) (by simp)))
        · exact h.child (by simp [hp])
      · rw [h2]
        refine filled_labels (by simp) fun p hp => ?_
        simp only [List.mem_append, List.mem_singleton] at hp
        rcases hp with hp | rfl
        · exact h.child hp
        · refine ⟨fun bs' hs => ?_, fun e m hs => ?_⟩
          · rw [sub_body] at hs; injection hs with hs; subst hs; simp
          · rw [sub_body] at hs; cases hs

theorem uniqueLabels_body (bs : List Body) : UniqueLabels (.body bs) := by
  intro e m hs; rw [sub_body] at hs; cases hs

theorem uniqueLabels_append {ls : List BlockLabel} {x : Body} : ∀ {b : BlockBody}, UniqueLabels b →
    UniqueLabels (b.append ls x) := by
  induction ls with
  | nil =>
    intro b h
    cases b with
    | body bs => exact uniqueLabels_body _
    | labels e m => exact uniqueLabels_labels (h e m (.refl _)) fun p hp => h.child hp
  | cons l ls ih =>
    intro b h
    cases b with
    | body bs =>
      rw [BlockBody.append]
      refine uniqueLabels_labels (by simp) fun p hp => ?_
      simp only [List.mem_singleton] at hp
      subst hp
      exact ih (uniqueLabels_body _)
    | labels e m =>
      rw [BlockBody.append]
      have hn := h e m (.refl _)
      rcases upsert_cases (norm := BlockLabel.norm) l (.body [x]) (fun b => b.append ls x) m with
        ⟨pre, k', v, post, rfl, h1, h2, h3⟩ | ⟨h1, h2⟩
      · rw [h3]
        refine uniqueLabels_labels (by simpa using hn) fun p hp => ?_
        simp only [List.mem_append, List.mem_cons] at hp
        rcases hp with hp | rfl | hp
        · exact h.child (by simp [hp])
        · exact ih (h.child (p := (k', v)) (by simp))
        · exact h.child (by simp [hp])
      · rw [h2]
        refine uniqueLabels_labels ?_ fun p hp => ?_
        · rw [List.map_append, List.nodup_append]
          refine ⟨hn, by simp, ?_⟩
          intro a ha b hb
          obtain ⟨p, hp, rfl⟩ := List.mem_map.1 ha
          simp only [List.map_cons, List.map_nil, List.mem_singleton] at hb
          subst hb
          exact h1 p hp
        simp only [List.mem_append, List.mem_singleton] at hp
        rcases hp with hp | rfl
        · exact h.child hp
        · exact uniqueLabels_body _

/-! ## what append adds -/

theorem append_bodies {ls : List BlockLabel} {x : Body} : ∀ {b : BlockBody},
    ((b.append ls x).flatIter.map Prod.snd).Perm (x :: b.flatIter.map Prod.snd) := by
  induction ls with
  | nil =>
    intro b
    cases b with
    | body bs =>
      simp only [BlockBody.append, BlockBody.flatIter, List.map_append, List.map_map, List.map_cons, List.map_nil,
        Function.comp_def]
      exact (List.perm_append_comm (l₁ := List.map (fun x => x) bs) (l₂ := [x]))
    | labels e m =>
      simp only [BlockBody.append, BlockBody.flatIter, List.map_append, List.map_map, List.map_cons, List.map_nil,
        Function.comp_def]
      rw [List.append_assoc]
      exact List.perm_middle
  | cons l ls ih =>
    intro b
    have hmap : ∀ (k : BlockLabel) (c : BlockBody),
        (c.flatIter.map fun q => (k.text :: q.1, q.2)).map Prod.snd = c.flatIter.map Prod.snd := by
      intro k c; rw [List.map_map]; rfl
    cases b with
    | body bs =>
      simp only [BlockBody.append, BlockBody.flatIter, flatIterLabels_eq, List.flatMap_cons, List.flatMap_nil,
        List.append_nil, List.map_append, hmap]
      refine (List.Perm.append_left _ (ih (b := .default))).trans ?_
      refine List.perm_middle.trans ?_
      simp [BlockBody.default, BlockBody.flatIter]
    | labels e m =>
      rw [BlockBody.append]
      rcases upsert_cases (norm := BlockLabel.norm) l (.body [x]) (fun b => b.append ls x) m with
        ⟨pre, k', v, post, rfl, h1, h2, h3⟩ | ⟨h1, h2⟩
      · rw [h3]
        simp only [BlockBody.flatIter, flatIterLabels_eq, List.map_append, List.flatMap_append, List.flatMap_cons, hmap]
        have h4 := ih (b := v)
        refine (List.Perm.append_left _ (List.Perm.append_left _ (List.Perm.append_right _ h4))).trans ?_
        rw [List.cons_append, ← List.append_assoc, ← List.append_assoc]
        exact List.perm_middle
      · rw [h2]
        simp only [BlockBody.flatIter, flatIterLabels_eq, List.map_append, List.flatMap_append, List.flatMap_cons,
          List.flatMap_nil, List.append_nil, List.map_cons, List.map_nil, ← List.append_assoc]
        exact List.perm_append_comm (l₂ := [x])

theorem at_body {bs : List Body} {q : List BlockLabel} {c : BlockBody} : At (.body bs) q c ↔ q = [] ∧ c = .body bs := by
  constructor
  · intro h; cases h; exact ⟨rfl, rfl⟩
  · rintro ⟨rfl, rfl⟩; exact .here _

theorem lost_body {bs : List Body} {ls : List BlockLabel} : ¬ Lost (.body bs) ls := by
  rintro ⟨q, l, r, e, m, -, -, h, -⟩
  rw [at_body] at h
  cases h.2

theorem lost_nil {b : BlockBody} : ¬ Lost b [] := by
  rintro ⟨q, l, r, e, m, h, -⟩
  simp at h

theorem lost_cons {e : List Body} {m : List (BlockLabel × BlockBody)} {l : BlockLabel} {ls : List BlockLabel} :
    Lost (.labels e m) (l :: ls) ↔
      ((∀ p ∈ m, p.1.norm ≠ l.norm) ∧ ls ≠ []) ∨ ∃ p ∈ m, p.1.norm = l.norm ∧ Lost p.2 ls := by
  constructor
  · rintro ⟨q, l', r, e', m', h, hr, ha, hm⟩
    cases q with
    | nil =>
      simp at h
      obtain ⟨rfl, rfl⟩ := h
      have : BlockBody.labels e m = .labels e' m' := by cases ha; rfl
      injection this with _ this; subst this
      exact .inl ⟨hm, hr⟩
    | cons q0 q =>
      simp only [List.cons_append, List.cons.injEq] at h
      obtain ⟨rfl, rfl⟩ := h
      cases ha with
      | step _ _ p _ _ _ hp hn ha =>
        exact .inr ⟨p, hp, hn, q, l', r, e', m', rfl, hr, ha, hm⟩
  · rintro (⟨h1, h2⟩ | ⟨p, hp, hn, q, l', r, e', m', rfl, hr, ha, hm⟩)
    · exact ⟨[], l, ls, e, m, rfl, h2, .here _, h1⟩
    · exact ⟨l :: q, l', r, e', m', rfl, hr, .step _ _ p _ _ _ hp hn ha, hm⟩

/-- The path under which an appended block ends up. -/
theorem append_flat {ls : List BlockLabel} {x : Body} : ∀ {b : BlockBody}, UniqueLabels b →
    (¬ Lost b ls → (b.append ls x).flatIter.Perm ((ls.map BlockLabel.text, x) :: b.flatIter)) ∧
    (∀ q l r e m, ls = q ++ l :: r → At b q (.labels e m) → (∀ p ∈ m, p.1.norm ≠ l.norm) →
      (b.append ls x).flatIter.Perm (((q ++ [l]).map BlockLabel.text, x) :: b.flatIter)) := by
  induction ls with
  | nil =>
    intro b _
    refine ⟨fun _ => ?_, fun q l r e m h => by simp at h⟩
    cases b with
    | body bs =>
      simp only [BlockBody.append, BlockBody.flatIter, List.map_append, List.map_cons, List.map_nil]
      exact (List.perm_append_comm (l₂ := [([], x)]))
    | labels e m =>
      simp only [BlockBody.append, BlockBody.flatIter, List.map_append, List.map_cons, List.map_nil]
      rw [List.append_assoc]
      exact List.perm_middle
  | cons l ls ih =>
    intro b hu
    cases b with
    | body bs =>
      refine ⟨fun _ => ?_, fun q l' r e m _ h => absurd (at_body.1 h).2 (by simp)⟩
      simp only [BlockBody.append, BlockBody.flatIter, flatIterLabels_eq, List.flatMap_cons, List.flatMap_nil,
        List.append_nil]
      have h1 := ((ih (b := .default) (uniqueLabels_body _)).1 lost_body).map
        (fun q : List Str × Body => (l.text :: q.1, q.2))
      refine (List.Perm.append_left _ h1).trans ?_
      simp only [BlockBody.default, BlockBody.flatIter, List.map_cons, List.map_nil]
      exact List.perm_middle.trans (by simp)
    | labels e m =>
      rw [BlockBody.append]
      rcases upsert_cases (norm := BlockLabel.norm) l (.body [x]) (fun b => b.append ls x) m with
        ⟨pre, k', v, post, rfl, h1, h2, h3⟩ | ⟨h1, h2⟩
      · have hv : ∀ {p : BlockLabel × BlockBody}, p ∈ pre ++ (k', v) :: post → p.1.norm = l.norm → p.2 = v := by
          intro p hp hn
          have hu := hu _ _ (.refl _)
          have a := get_of_mem (borrow := BlockLabel.norm) hp hu
          have b := get_of_mem (borrow := BlockLabel.norm) (p := (k', v)) (by simp) hu
          rw [hn] at a; rw [h1] at b
          rw [a] at b; injection b
        have main : ∀ path : List Str, (v.append ls x).flatIter.Perm ((path, x) :: v.flatIter) →
            (BlockBody.labels e (pre ++ (k', v.append ls x) :: post)).flatIter.Perm
              ((l.text :: path, x) :: (BlockBody.labels e (pre ++ (k', v) :: post)).flatIter) := by
          intro path h4
          simp only [BlockBody.flatIter, flatIterLabels_eq, List.flatMap_append, List.flatMap_cons]
          have h5 := h4.map (fun q : List Str × Body => (k'.text :: q.1, q.2))
          rw [List.map_cons, norm_text h1] at h5
          rw [norm_text h1] at *
          refine (List.Perm.append_left _ (List.Perm.append_left _ (List.Perm.append_right _ h5))).trans ?_
          rw [List.cons_append, ← List.append_assoc, ← List.append_assoc]
          exact List.perm_middle
        rw [h3]
        constructor
        · intro hl
          rw [lost_cons] at hl
          exact main _ ((ih (hu.child (p := (k', v)) (by simp))).1 fun h => hl (.inr ⟨(k', v), by simp, h1, h⟩))
        · intro q l' r e' m' hq ha hm
          cases q with
          | nil =>
            simp at hq
            obtain ⟨rfl, rfl⟩ := hq
            cases ha
            exact absurd h1 (hm (k', v) (by simp))
          | cons q0 q =>
            simp only [List.cons_append, List.cons.injEq] at hq
            obtain ⟨rfl, rfl⟩ := hq
            cases ha with
            | step _ _ p _ _ _ hp hn ha =>
              rw [hv hp hn] at ha
              exact main _ ((ih (hu.child (p := (k', v)) (by simp))).2 q l' r e' m' rfl ha hm)
      · rw [h2]
        have main : (BlockBody.labels e (m ++ [(l, .body [x])])).flatIter.Perm
            (([l.text], x) :: (BlockBody.labels e m).flatIter) := by
          simp only [BlockBody.flatIter, flatIterLabels_eq, List.flatMap_append, List.flatMap_cons,
            List.flatMap_nil, List.append_nil, List.map_cons, List.map_nil, ← List.append_assoc]
          exact List.perm_append_comm (l₂ := [_])
        constructor
        · intro hl
          rw [lost_cons] at hl
          have : ls = [] := by
            cases ls with
            | nil => rfl
            | cons a ls => exact absurd (.inl ⟨h1, by simp⟩) hl
          subst this
          exact main
        · intro q l' r e' m' hq ha hm
          cases q with
          | nil =>
            simp at hq
            obtain ⟨rfl, rfl⟩ := hq
            exact main
          | cons q0 q =>
            simp only [List.cons_append, List.cons.injEq] at hq
            obtain ⟨rfl, rfl⟩ := hq
            cases ha with
            | step _ _ p _ _ _ hp hn ha => exact absurd hn (h1 p hp)

end Verif
