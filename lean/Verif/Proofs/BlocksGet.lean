import Verif.Proofs.Blocks
/-! # Lookups in indexed blocks -/
set_option autoImplicit false

namespace Verif
open Spec

@[simp] theorem bodiesAt_nil (b : BlockBody) : bodiesAt b [] = b.getEmpty := by
  simp [bodiesAt, BlockBody.get]

@[simp] theorem bodiesAt_body (bs : List Body) (t : Str) (ts : List Str) : bodiesAt (.body bs) (t :: ts) = [] := by
  simp [bodiesAt, BlockBody.get]

theorem bodiesAt_labels (e : List Body) (m : List (BlockLabel × BlockBody)) (t : Str) (ts : List Str) :
    bodiesAt (.labels e m) (t :: ts) = match HashMap.get BlockLabel.text t m with
      | none => []
      | some b => bodiesAt b ts := by
  simp only [bodiesAt, BlockBody.get]
  cases HashMap.get BlockLabel.text t m <;> rfl

theorem hget_append {K V Q : Type} [DecidableEq Q] (borrow : K → Q) (q : Q) (a b : HashMap K V) :
    HashMap.get borrow q (a ++ b) = match HashMap.get borrow q a with
      | none => HashMap.get borrow q b
      | some v => some v := by
  induction a with
  | nil => simp [HashMap.get]
  | cons p a ih =>
    obtain ⟨k, v⟩ := p
    simp only [List.cons_append, HashMap.get]
    split
    · rfl
    · exact ih

/-- the entry found for its own key when no entry before it has the same text -/
theorem hget_middle {K V Q : Type} [DecidableEq Q] {borrow : K → Q} {pre post : HashMap K V} {k : K} {v : V}
    (h : ∀ p ∈ pre, borrow p.1 ≠ borrow k) : HashMap.get borrow (borrow k) (pre ++ (k, v) :: post) = some v := by
  rw [hget_append, get_none.2 h]; simp [HashMap.get]

theorem hget_middle_ne {K V Q : Type} [DecidableEq Q] {borrow : K → Q} {pre post : HashMap K V} {k : K} {v w : V} {q : Q}
    (h : borrow k ≠ q) : HashMap.get borrow q (pre ++ (k, v) :: post) = HashMap.get borrow q (pre ++ (k, w) :: post) := by
  rw [hget_append, hget_append]; simp [HashMap.get, h]

theorem nodup_pre {K V Q : Type} {f : K × V → Q} {pre post : List (K × V)} {x : K × V}
    (h : ((pre ++ x :: post).map f).Nodup) : ∀ p ∈ pre, f p ≠ f x := by
  intro p hp he
  rw [List.map_append, List.nodup_append] at h
  exact h.2.2 (f p) (List.mem_map_of_mem hp) (f x) (by simp) he

theorem append_bodiesAt {ls : List BlockLabel} {x : Body} : ∀ {b : BlockBody}, UniqueTexts (b.append ls x) →
    (¬ Lost b ls → ∀ ts, bodiesAt (b.append ls x) ts = bodiesAt b ts ++ if ts = ls.map BlockLabel.text then [x] else []) ∧
    (∀ q l r e m, ls = q ++ l :: r → At b q (.labels e m) → (∀ p ∈ m, p.1.norm ≠ l.norm) → UniqueLabels b →
      (∀ ts, bodiesAt (b.append ls x) ts =
        bodiesAt b ts ++ if ts = (q ++ [l]).map BlockLabel.text then [x] else []) ∧
      (r ≠ [] → (b.append ls x).get (ls.map BlockLabel.text) = none)) := by
  induction ls with
  | nil =>
    intro b _
    refine ⟨fun _ ts => ?_, fun q l r e m h => by simp at h⟩
    cases b with
    | body bs => cases ts <;> simp [BlockBody.append, BlockBody.getEmpty]
    | labels e m => cases ts <;> simp [BlockBody.append, BlockBody.getEmpty, bodiesAt_labels]
  | cons l ls ih =>
    intro b hu
    cases b with
    | body bs =>
      refine ⟨fun _ ts => ?_, fun q l' r e m _ h => absurd (at_body.1 h).2 (by simp)⟩
      rw [BlockBody.append] at hu ⊢
      cases ts with
      | nil => simp [BlockBody.getEmpty]
      | cons t ts =>
        rw [bodiesAt_labels]
        by_cases ht : l.text = t
        · subst ht
          have := (ih (b := .default) (hu.child (p := (l, _)) (by simp))).1 lost_body ts
          simp only [HashMap.get, if_pos, this, List.map_cons, List.cons.injEq, true_and, bodiesAt_body, List.nil_append]
          cases ts <;> simp [BlockBody.default, BlockBody.getEmpty]
        · simp [HashMap.get, ht, Ne.symm ht]
    | labels e m =>
      rw [BlockBody.append] at hu ⊢
      rcases upsert_cases (norm := BlockLabel.norm) l (.body [x]) (fun b => b.append ls x) m with
        ⟨pre, k', v, post, rfl, h1, h2, h3⟩ | ⟨h1, h2⟩
      · rw [h3] at hu ⊢
        have ht := norm_text h1
        have hpre : ∀ p ∈ pre, p.1.text ≠ l.text := by
          have := nodup_pre (hu _ _ (.refl _))
          simpa [ht] using this
        have hv : ∀ {p : BlockLabel × BlockBody}, UniqueLabels (.labels e (pre ++ (k', v) :: post)) →
            p ∈ pre ++ (k', v) :: post → p.1.norm = l.norm → p.2 = v := by
          intro p hu hp hn
          have hu := hu _ _ (.refl _)
          have a := get_of_mem (borrow := BlockLabel.norm) hp hu
          have b := get_of_mem (borrow := BlockLabel.norm) (p := (k', v)) (by simp) hu
          rw [hn] at a; rw [h1] at b
          rw [a] at b; injection b
        have main : ∀ path : List Str,
            (∀ ts, bodiesAt (v.append ls x) ts = bodiesAt v ts ++ if ts = path then [x] else []) →
            ∀ ts, bodiesAt (.labels e (pre ++ (k', v.append ls x) :: post)) ts =
              bodiesAt (.labels e (pre ++ (k', v) :: post)) ts ++ if ts = l.text :: path then [x] else [] := by
          intro path h4 ts
          cases ts with
          | nil => simp [BlockBody.getEmpty]
          | cons t ts =>
            rw [bodiesAt_labels, bodiesAt_labels]
            by_cases htt : k'.text = t
            · subst htt
              have hpre' : ∀ p ∈ pre, p.1.text ≠ k'.text := by rw [ht]; exact hpre
              rw [hget_middle (borrow := BlockLabel.text) hpre', hget_middle (borrow := BlockLabel.text) hpre']
              simp [h4, ht]
            · rw [hget_middle_ne (borrow := BlockLabel.text) (w := v) htt]
              have : ¬ (t = l.text) := by rw [← ht]; exact fun h => htt h.symm
              simp [this]
        have hchild := hu.child (p := (k', v.append ls x)) (by simp)
        constructor
        · intro hl
          rw [lost_cons] at hl
          exact main _ ((ih hchild).1 fun h => hl (.inr ⟨(k', v), by simp, h1, h⟩))
        · intro q l' r e' m' hq ha hm hul
          cases q with
          | nil =>
            simp at hq
            obtain ⟨rfl, rfl⟩ := hq
            cases ha
            exact absurd h1 (hm (k', v) (by simp))
          | cons q0 q =>
            simp only [List.cons_append, List.cons.injEq] at hq
            obtain ⟨rfl, rfl⟩ := hq
            cases ha with
            | step _ _ p _ _ _ hp hn ha =>
              rw [hv hul hp hn] at ha
              obtain ⟨i1, i2⟩ := (ih hchild).2 q l' r e' m' rfl ha hm (hul.child (p := (k', v)) (by simp))
              refine ⟨main _ i1, fun hr => ?_⟩
              have hpre' : ∀ p ∈ pre, p.1.text ≠ k'.text := by rw [ht]; exact hpre
              rw [List.map_cons, BlockBody.get, ← ht, hget_middle (borrow := BlockLabel.text) hpre']
              exact i2 hr
      · rw [h2] at hu ⊢
        have hm : ∀ p ∈ m, p.1.text ≠ l.text := nodup_pre (x := (l, .body [x])) (hu _ _ (.refl _))
        have main : ∀ ts, bodiesAt (.labels e (m ++ [(l, .body [x])])) ts =
              bodiesAt (.labels e m) ts ++ if ts = [l.text] then [x] else [] := by
          intro ts
          cases ts with
          | nil => simp [BlockBody.getEmpty]
          | cons t ts =>
            rw [bodiesAt_labels, bodiesAt_labels, hget_append]
            by_cases htt : l.text = t
            · subst htt
              rw [get_none.2 hm]
              cases ts <;> simp [HashMap.get, BlockBody.getEmpty]
            · cases HashMap.get BlockLabel.text t m <;> simp [HashMap.get, htt, Ne.symm htt]
        constructor
        · intro hl
          rw [lost_cons] at hl
          have : ls = [] := by
            cases ls with
            | nil => rfl
            | cons a ls => exact absurd (.inl ⟨h1, by simp⟩) hl
          subst this
          exact main
        · intro q l' r e' m' hq ha hm' hul
          cases q with
          | nil =>
            simp at hq
            obtain ⟨rfl, rfl⟩ := hq
            refine ⟨main, fun hr => ?_⟩
            rw [List.map_cons, BlockBody.get, hget_middle (borrow := BlockLabel.text) hm]
            cases hls : ls with
            | nil => exact absurd hls hr
            | cons => rfl
          | cons q0 q =>
            simp only [List.cons_append, List.cons.injEq] at hq
            obtain ⟨rfl, rfl⟩ := hq
            cases ha with
            | step _ _ p _ _ _ hp hn ha => exact absurd hn (h1 p hp)

/-- Lookup by path is filtering the flat iteration. -/
theorem flatIter_filter : ∀ (b : BlockBody), UniqueTexts b → ∀ ts : List Str,
    (b.flatIter.filter fun q => decide (q.1 = ts)).map Prod.snd = bodiesAt b ts := by
  apply BlockBody.induct (P := fun b => UniqueTexts b → ∀ ts : List Str,
    (b.flatIter.filter fun q => decide (q.1 = ts)).map Prod.snd = bodiesAt b ts)
  · intro bs _ ts
    cases ts <;> simp [BlockBody.flatIter, BlockBody.getEmpty, List.filter_map, Function.comp_def]
  · intro e m ih hu ts
    cases ts with
    | nil =>
      simp only [BlockBody.flatIter, flatIterLabels_eq, List.filter_append, List.filter_map, Function.comp_def,
        List.map_append, bodiesAt_nil, BlockBody.getEmpty]
      have : (m.flatMap fun p => p.2.flatIter.map fun q => (p.1.text :: q.1, q.2)).filter
          (fun q => decide (q.1 = [])) = [] := by
        rw [List.filter_eq_nil_iff]
        intro q hq
        simp only [List.mem_flatMap, List.mem_map] at hq
        obtain ⟨p, -, q', -, rfl⟩ := hq
        simp
      rw [this]
      simp [Function.comp_def]
    | cons t ts =>
      have key : ∀ m' : List (BlockLabel × BlockBody), (∀ p ∈ m', p ∈ m) → (m'.map fun p => p.1.text).Nodup →
          ((m'.flatMap fun p => p.2.flatIter.map fun q => (p.1.text :: q.1, q.2)).filter
            fun q => decide (q.1 = t :: ts)).map Prod.snd =
          match HashMap.get BlockLabel.text t m' with
          | none => []
          | some b => bodiesAt b ts := by
        intro m'
        induction m' with
        | nil => intros; simp [HashMap.get]
        | cons p m' ihm =>
          intro hs hn
          obtain ⟨k, b⟩ := p
          have hb := ih (k, b) (hs _ (by simp)) (hu.child (p := (k, b)) (hs _ (by simp))) ts
          have ihm := ihm (fun p hp => hs p (by simp [hp])) (List.nodup_cons.1 hn).2
          simp only [List.flatMap_cons, List.filter_append, List.map_append, List.filter_map, Function.comp_def,
            List.map_map, List.cons.injEq]
          by_cases hk : k.text = t
          · subst hk
            have hnone : HashMap.get BlockLabel.text k.text m' = none := by
              rw [get_none]
              intro p hp he
              exact (List.nodup_cons.1 hn).1 (by simp only [List.mem_map]; exact ⟨p, hp, he⟩)
            rw [hnone] at ihm
            rw [ihm]
            simp only [HashMap.get, if_pos, true_and, List.append_nil]
            exact hb
          · simp only [hk, false_and, decide_false, HashMap.get, if_false]
            rw [ihm]
            simp
      rw [bodiesAt_labels, ← key m (fun _ h => h) (hu _ _ (.refl _))]
      simp only [BlockBody.flatIter, flatIterLabels_eq, List.filter_append, List.map_append]
      have : (e.map fun x => (([] : List Str), x)).filter (fun q => decide (q.1 = t :: ts)) = [] := by
        simp [List.filter_map, Function.comp_def]
      rw [this]; simp

end Verif
