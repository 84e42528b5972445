import Verif.Proofs.BlocksEq
/-! # `==` on indexed blocks: hash order, histories, appending, reading -/
set_option autoImplicit false

namespace Verif
open Spec Props

section
variable {E : Body → Body → Prop}

/-! ## hash order -/

theorem same_at {b b' : BlockBody} (h : SameBlocks b b') (q : List BlockLabel) {c : BlockBody} (hc : At b q c) :
    ∃ c', At b' q c' ∧ c'.getEmpty = c.getEmpty := by
  refine (same_induct (R := fun b b' => ∀ q c, At b q c → ∃ c', At b' q c' ∧ c'.getEmpty = c.getEmpty)
    (L := fun m m' => ∀ p ∈ m, ∀ q c, At p.2 q c → ∃ p' ∈ m', p'.1.norm = p.1.norm ∧ ∃ c', At p'.2 q c' ∧ c'.getEmpty = c.getEmpty)
    ?_ ?_ ?_ ?_ ?_ ?_).1 b b' h q c hc
  · intro bs q c hc; exact ⟨c, hc, rfl⟩
  · intro e m m' _ ih q c hc
    cases hc with
    | here => exact ⟨_, .here _, rfl⟩
    | step _ _ p l ls _ hp hl hc =>
      obtain ⟨p', hp', hl', c', h1, h2⟩ := ih p hp ls c hc
      exact ⟨c', .step _ _ p' _ _ _ hp' (hl'.trans hl) h1, h2⟩
  · intro p hp; cases hp
  · intro k b b' m m' _ _ ih1 ih2 p hp q c hc
    rcases List.mem_cons.1 hp with rfl | hp
    · obtain ⟨c', h1, h2⟩ := ih1 q c hc
      exact ⟨(k, b'), by simp, rfl, c', h1, h2⟩
    · obtain ⟨p', hp', h1⟩ := ih2 p hp q c hc
      exact ⟨p', by simp [hp'], h1⟩
  · intro x y m m' _ ih p hp q c hc
    rcases List.mem_cons.1 hp with rfl | hp
    · exact ⟨p, by simp, rfl, c, hc, rfl⟩
    rcases List.mem_cons.1 hp with rfl | hp
    · exact ⟨p, by simp, rfl, c, hc, rfl⟩
    · obtain ⟨p', hp', h1⟩ := ih p hp q c hc
      exact ⟨p', by simp [hp'], h1⟩
  · intro a b c _ _ ih1 ih2 p hp q x hx
    obtain ⟨p1, hp1, h1, x1, h2, h3⟩ := ih1 p hp q x hx
    obtain ⟨p2, hp2, h4, x2, h5, h6⟩ := ih2 p1 hp1 q x1 h2
    exact ⟨p2, hp2, h4.trans h1, x2, h5, h6.trans h3⟩

theorem places_same_left {b b' c : BlockBody} (h : SameBlocks b b') (hp : SamePlaces E b c) : SamePlaces E b' c := by
  intro q
  constructor
  · intro x hx
    obtain ⟨y, hy, he⟩ := same_at (same_symm h) q hx
    obtain ⟨z, hz, hr⟩ := (hp q).1 y hy
    exact ⟨z, hz, by rw [← he]; exact hr⟩
  · intro z hz
    obtain ⟨y, hy, hr⟩ := (hp q).2 z hz
    obtain ⟨x, hx, he⟩ := same_at h q hy
    exact ⟨x, hx, by rw [he]; exact hr⟩

theorem places_flip {b c : BlockBody} (h : SamePlaces E b c) : SamePlaces (fun x y => E y x) c b := by
  intro q
  constructor
  · intro x hx; obtain ⟨y, hy, hr⟩ := (h q).2 x hx; exact ⟨y, hy, allPairs_flip hr⟩
  · intro x hx; obtain ⟨y, hy, hr⟩ := (h q).1 x hx; exact ⟨y, hy, allPairs_flip hr⟩

theorem places_mono {F : Body → Body → Prop} (hF : ∀ x y, E x y → F x y) {b c : BlockBody} (h : SamePlaces E b c) :
    SamePlaces F b c := by
  intro q
  constructor
  · intro x hx; obtain ⟨y, hy, hr⟩ := (h q).1 x hx; exact ⟨y, hy, allPairs_mono (fun _ _ _ _ h => hF _ _ h) hr⟩
  · intro x hx; obtain ⟨y, hy, hr⟩ := (h q).2 x hx; exact ⟨y, hy, allPairs_mono (fun _ _ _ _ h => hF _ _ h) hr⟩

theorem places_trans (hE : ∀ x y z, E x y → E y z → E x z) {a b c : BlockBody} (hb : UniqueLabels b) (h : SamePlaces E a b)
    (h' : SamePlaces E b c) : SamePlaces E a c := by
  intro q
  constructor
  · intro x hx
    obtain ⟨y, hy, h1⟩ := (h q).1 x hx
    obtain ⟨z, hz, h2⟩ := (h' q).1 y hy
    exact ⟨z, hz, allPairs_trans hE h1 h2⟩
  · intro z hz
    obtain ⟨y, hy, h1⟩ := (h' q).2 z hz
    obtain ⟨x, hx, h2⟩ := (h q).2 y hy
    exact ⟨x, hx, allPairs_trans hE h2 h1⟩

theorem places_same_right {b b' c : BlockBody} (h : SameBlocks b b') (hp : SamePlaces E c b) : SamePlaces E c b' :=
  places_flip (places_same_left h (places_flip hp))

/-! ## reflexivity -/

theorem flatIter_at : ∀ (b : BlockBody) (x : Body), x ∈ b.flatIter.map Prod.snd ↔ ∃ q c, At b q c ∧ x ∈ c.getEmpty := by
  apply BlockBody.induct (P := fun b => ∀ x : Body, x ∈ b.flatIter.map Prod.snd ↔ ∃ q c, At b q c ∧ x ∈ c.getEmpty)
  · intro bs x
    simp only [BlockBody.flatIter, List.map_map, Function.comp_def, List.map_id']
    constructor
    · intro h; exact ⟨[], _, .here _, h⟩
    · rintro ⟨q, c, hc, hx⟩; obtain ⟨rfl, rfl⟩ := at_body.1 hc; exact hx
  · intro e m ih x
    simp only [BlockBody.flatIter, flatIterLabels_eq, List.map_append, List.map_map, Function.comp_def, List.map_id',
      List.mem_append, List.map_flatMap, List.mem_flatMap]
    constructor
    · rintro (h | ⟨p, hp, h⟩)
      · exact ⟨[], _, .here _, h⟩
      · obtain ⟨q, c, hc, hx⟩ := (ih p hp x).1 h
        exact ⟨p.1 :: q, c, .step _ _ p _ _ _ hp rfl hc, hx⟩
    · rintro ⟨q, c, hc, hx⟩
      cases hc with
      | here => exact .inl hx
      | step _ _ p l ls _ hp hl hc => exact .inr ⟨p, hp, (ih p hp x).2 ⟨ls, c, hc, hx⟩⟩

theorem pairsSelf_iff {α : Type} {R : α → α → Prop} : ∀ {l : List α}, AllPairs R l l ↔ ∀ x ∈ l, R x x := by
  intro l
  induction l with
  | nil => simp only [List.not_mem_nil, false_implies, implies_true, iff_true]; exact .nil
  | cons a l ih =>
    rw [List.forall_mem_cons, ← ih]
    exact ⟨fun h => by cases h; exact ⟨‹_›, ‹_›⟩, fun h => .cons _ _ _ _ h.1 h.2⟩

theorem places_refl_iff {b : BlockBody} (hu : UniqueLabels b) : SamePlaces E b b ↔ ∀ x ∈ b.flatIter.map Prod.snd, E x x := by
  constructor
  · intro h x hx
    obtain ⟨q, c, hc, hx⟩ := (flatIter_at b x).1 hx
    obtain ⟨c', hc', hr⟩ := (h q).1 c hc
    rw [at_functional hu hc' hc] at hr
    exact pairsSelf_iff.1 hr x hx
  · intro h q
    have : ∀ c, At b q c → AllPairs E c.getEmpty c.getEmpty := fun c hc =>
      pairsSelf_iff.2 fun x hx => h x ((flatIter_at b x).2 ⟨q, c, hc, hx⟩)
    exact ⟨fun c hc => ⟨c, hc, this c hc⟩, fun c hc => ⟨c, hc, this c hc⟩⟩

/-! ## histories -/

theorem bodyExtend_append (b : BlockBody) (h : List (List BlockLabel × Body)) (ls : List BlockLabel) (x : Body) :
    b.extend (h ++ [(ls, x)]) = (b.extend h).append ls x := by
  induction h generalizing b with
  | nil => rfl
  | cons p h ih => obtain ⟨l, y⟩ := p; exact ih _

/-- What results from a history is the history's blocks put in one after the other, up to hash order. -/
theorem built_canonical {b : BlockBody} {h : List (List BlockLabel × Body)} (hb : Built b h) :
    SameBlocks (BlockBody.fromIter h) b := by
  induction hb with
  | default => exact same_refl _
  | append b h ls x hb ih =>
    rw [BlockBody.fromIter, bodyExtend_append]
    refine same_append ih ?_
    have : Built (BlockBody.default.extend h) ([] ++ h) := built_extend .default
    exact built_uniqueLabels this
  | reorder b b' h _ hs ih => exact same_trans ih hs

theorem built_same {b b' : BlockBody} {h : List (List BlockLabel × Body)} (hb : Built b h) (hb' : Built b' h) :
    SameBlocks b b' := same_trans (same_symm (built_canonical hb)) (built_canonical hb')

/-! ## looking up -/

theorem get_at : ∀ {ts : List Str} {b c : BlockBody}, UniqueTexts b →
    (b.get ts = some c ↔ ∃ q : List BlockLabel, q.map BlockLabel.text = ts ∧ At b q c) := by
  intro ts
  induction ts with
  | nil =>
    intro b c _
    simp only [BlockBody.get, Option.some.injEq, List.map_eq_nil_iff]
    constructor
    · rintro rfl; exact ⟨[], rfl, .here _⟩
    · rintro ⟨q, rfl, h⟩; exact (at_nil.1 h).symm
  | cons t ts ih =>
    intro b c hu
    cases b with
    | body bs =>
      simp only [BlockBody.get, reduceCtorEq, false_iff]
      rintro ⟨q, hq, h⟩
      rw [(at_body.1 h).1] at hq; cases hq
    | labels e m =>
      have hn := hu e m (.refl _)
      simp only [BlockBody.get]
      constructor
      · intro h
        cases h1 : HashMap.get BlockLabel.text t m with
        | none => rw [h1] at h; cases h
        | some d =>
          rw [h1] at h
          obtain ⟨k, hk, hkt⟩ := get_some h1
          obtain ⟨q, hq, hc⟩ := (ih (hu.child hk)).1 h
          exact ⟨k :: q, by simp [hkt, hq], .step _ _ (k, d) _ _ _ hk rfl hc⟩
      · rintro ⟨q, hq, h⟩
        cases h with
        | here => cases hq
        | step _ _ p l ls _ hp hl hc =>
          simp only [List.map_cons, List.cons.injEq] at hq
          rw [← hq.1, ← norm_text hl, get_of_mem (borrow := BlockLabel.text) hp hn]
          exact (ih (hu.child hp)).2 ⟨ls, hq.2, hc⟩

theorem places_at {b b' c c' : BlockBody} (hu : UniqueLabels b) (hu' : UniqueLabels b') (h : SamePlaces E b b')
    {q : List BlockLabel} (hc : At b q c) (hc' : At b' q c') : SamePlaces E c c' := by
  intro r
  constructor
  · intro d hd
    obtain ⟨d', h1, h2⟩ := (h (q ++ r)).1 d ((at_append hu hc).2 hd)
    exact ⟨d', (at_append hu' hc').1 h1, h2⟩
  · intro d hd
    obtain ⟨d', h1, h2⟩ := (h (q ++ r)).2 d ((at_append hu' hc').2 hd)
    exact ⟨d', (at_append hu hc).1 h1, h2⟩

theorem places_get {b b' : BlockBody} (hu : UniqueLabels b) (hu' : UniqueLabels b') (ht : UniqueTexts b) (ht' : UniqueTexts b')
    (h : SamePlaces E b b') (ts : List Str) : OptRel (SamePlaces E) (b.get ts) (b'.get ts) := by
  cases h1 : b.get ts with
  | some c =>
    obtain ⟨q, hq, hc⟩ := (get_at ht).1 h1
    obtain ⟨c', hc', -⟩ := (h q).1 c hc
    rw [(get_at ht').2 ⟨q, hq, hc'⟩]
    exact places_at hu hu' h hc hc'
  | none =>
    cases h2 : b'.get ts with
    | none => trivial
    | some c' =>
      obtain ⟨q, hq, hc'⟩ := (get_at ht').1 h2
      obtain ⟨c, hc, -⟩ := (h q).2 c' hc'
      rw [(get_at ht).2 ⟨q, hq, hc⟩] at h1; cases h1

theorem at_sub {b : BlockBody} {q : List BlockLabel} {c : BlockBody} (h : At b q c) : Sub b c := by
  induction h with
  | here => exact .refl _
  | step e m p l ls c hp _ _ ih => exact .step _ _ p _ hp ih

/-- Where equal blocks are there are equal labels. -/
theorem places_uniqueTexts {b0 b0' : BlockBody} : UniqueLabels b0 → UniqueLabels b0' → NoEmptyLabels b0 → NoEmptyLabels b0' →
    SamePlaces E b0 b0' → UniqueTexts b0 → UniqueTexts b0' := by
  refine BlockBody.induct (P := fun b => ∀ b' : BlockBody, UniqueLabels b → UniqueLabels b' → NoEmptyLabels b →
    NoEmptyLabels b' → SamePlaces E b b' → UniqueTexts b → UniqueTexts b') ?_ ?_ b0 b0'
  · intro bs b' _ _ _ hf h _
    cases b' with
    | body bs' => intro e m hs; have := sub_body.1 hs; cases this
    | labels e m => exact absurd h (places_body_labels (hf e m (.refl _)))
  · intro e m ih b' hu hu' hf hf' h ht
    cases b' with
    | body bs' => intro e m hs; have := sub_body.1 hs; cases this
    | labels e' m' =>
      have hn := hu e m (.refl _)
      have hn' := hu' e' m' (.refl _)
      obtain ⟨-, hq⟩ := (places_labels hn hn').1 h
      have hT := ht e m (.refl _)
      have hfind : ∀ p' ∈ m', ∃ p ∈ m, p.1.norm = p'.1.norm ∧ SamePlaces E p.2 p'.2 := by
        intro p' hp'
        have h1 := hq p'.1.norm
        rw [get_of_mem (borrow := BlockLabel.norm) hp' hn'] at h1
        cases h2 : HashMap.get BlockLabel.norm p'.1.norm m with
        | none => rw [h2] at h1; exact h1.elim
        | some d =>
          rw [h2] at h1
          obtain ⟨k, hk, hkn⟩ := get_some h2
          exact ⟨(k, d), hk, hkn, h1⟩
      intro e2 m2 hs
      rcases sub_labels.1 hs with h' | ⟨p', hp', h'⟩
      · cases h'
        -- the texts of `m'`
        have hinj : ∀ a ∈ m, ∀ b ∈ m, a.1.text = b.1.text → a.1.norm = b.1.norm := by
          intro a ha b hb hab
          have h1 := get_of_mem (borrow := BlockLabel.text) ha hT
          have h2 := get_of_mem (borrow := BlockLabel.text) hb hT
          exact nodup_map_inj hT ha hb hab
        exact nodup_of_inj hn' fun a ha b hb hab => by
          obtain ⟨x, hx, hxn, -⟩ := hfind a ha
          obtain ⟨y, hy, hyn, -⟩ := hfind b hb
          rw [← hxn, ← hyn]
          refine hinj x hx y hy ?_
          rw [norm_text hxn, norm_text hyn, hab]
      · obtain ⟨p, hp, -, h1⟩ := hfind p' hp'
        exact ih p hp p'.2 (hu.child hp) (hu'.child hp') (hf.child hp) (hf'.child hp') h1 (ht.child hp) e2 m2 h'
where
  nodup_map_inj {m : List (BlockLabel × BlockBody)} (hT : (m.map fun p => p.1.text).Nodup) {a b : BlockLabel × BlockBody}
      (ha : a ∈ m) (hb : b ∈ m) (hab : a.1.text = b.1.text) : a.1.norm = b.1.norm := by
    induction m with
    | nil => cases ha
    | cons c m ih =>
      obtain ⟨h1, h2⟩ := List.nodup_cons.1 hT
      rcases List.mem_cons.1 ha with rfl | ha' <;> rcases List.mem_cons.1 hb with rfl | hb'
      · rfl
      · exact absurd (List.mem_map.2 ⟨b, hb', hab.symm⟩) h1
      · exact absurd (List.mem_map.2 ⟨a, ha', hab⟩) h1
      · exact ih h2 ha' hb'
  nodup_of_inj {m : List (BlockLabel × BlockBody)} (hn : (m.map fun p => p.1.norm).Nodup)
      (h : ∀ a ∈ m, ∀ b ∈ m, a.1.text = b.1.text → a.1.norm = b.1.norm) : (m.map fun p => p.1.text).Nodup := by
    induction m with
    | nil => exact List.nodup_nil
    | cons c m ih =>
      obtain ⟨h1, h2⟩ := List.nodup_cons.1 hn
      refine List.nodup_cons.2 ⟨fun hc => ?_, ih h2 fun a ha b hb => h a (by simp [ha]) b (by simp [hb])⟩
      obtain ⟨d, hd, he⟩ := List.mem_map.1 hc
      exact h1 (List.mem_map.2 ⟨d, hd, h d (by simp [hd]) c (by simp) he⟩)

/-! ## all blocks -/

/-- two blocks found in iterating: the same label texts, related bodies -/
abbrev ItemRel (E : Body → Body → Prop) (x y : List Str × Body) : Prop := x.1 = y.1 ∧ E x.2 y.2

theorem allPairs_append {α β : Type} {R : α → β → Prop} {a a' : List α} {b b' : List β} (h : AllPairs R a b)
    (h' : AllPairs R a' b') : AllPairs R (a ++ a') (b ++ b') := by
  induction h with
  | nil => exact h'
  | cons x y xs ys h1 _ ih => exact .cons _ _ _ _ h1 ih

theorem allPairs_map {α β γ δ : Type} {R : α → β → Prop} {S : γ → δ → Prop} {f : α → γ} {g : β → δ}
    (hS : ∀ a b, R a b → S (f a) (g b)) {as : List α} {bs : List β} (h : AllPairs R as bs) : AllPairs S (as.map f) (bs.map g) := by
  induction h with
  | nil => exact .nil
  | cons x y xs ys h1 _ ih => exact .cons _ _ _ _ (hS _ _ h1) ih

/-- related up to order -/
def PermRel {α : Type} (R : α → α → Prop) (a b : List α) : Prop := ∃ l, AllPairs R a l ∧ l.Perm b

theorem permRel_flatMap {α β : Type} {R : α → α → Prop} {S : β → β → Prop} {f : α → List β}
    (hS : ∀ a b, R a b → PermRel S (f a) (f b)) {as bs : List α} (h : AllPairs R as bs) :
    PermRel S (as.flatMap f) (bs.flatMap f) := by
  induction h with
  | nil => exact ⟨[], .nil, .refl _⟩
  | cons a b as bs h1 _ ih =>
    obtain ⟨l1, h2, h3⟩ := hS _ _ h1
    obtain ⟨l2, h4, h5⟩ := ih
    exact ⟨l1 ++ l2, allPairs_append h2 h4, h3.append h5⟩

theorem places_flatIter {b0 b0' : BlockBody} : UniqueLabels b0 → UniqueLabels b0' → NoEmptyLabels b0 → NoEmptyLabels b0' →
    SamePlaces E b0 b0' → PermRel (ItemRel E) b0.flatIter b0'.flatIter := by
  refine BlockBody.induct (P := fun b => ∀ b' : BlockBody, UniqueLabels b → UniqueLabels b' → NoEmptyLabels b →
    NoEmptyLabels b' → SamePlaces E b b' → PermRel (ItemRel E) b.flatIter b'.flatIter) ?_ ?_ b0 b0'
  · intro bs b' _ _ _ hf h
    cases b' with
    | body bs' => exact ⟨_, allPairs_map (fun _ _ h => ⟨rfl, h⟩) (places_body.1 h), .refl _⟩
    | labels e m => exact absurd h (places_body_labels (hf e m (.refl _)))
  · intro e m ih b' hu hu' hf hf' h
    cases b' with
    | body bs' => exact absurd h (places_labels_body (hf e m (.refl _)))
    | labels e' m' =>
      have hn := hu e m (.refl _)
      have hn' := hu' e' m' (.refl _)
      obtain ⟨he, hq⟩ := (places_labels hn hn').1 h
      obtain ⟨c, h1, h2⟩ := (hash_lookup hn hn').2 hq
      simp only [BlockBody.flatIter, flatIterLabels_eq]
      have h3 : AllPairs (fun p q => (p ∈ m ∧ q ∈ c) ∧ p.1.norm = q.1.norm ∧ SamePlaces E p.2 q.2) m c := pairs_mem h1
      have key : PermRel (ItemRel E) (m.flatMap fun p => p.2.flatIter.map fun q => (p.1.text :: q.1, q.2))
          (c.flatMap fun p => p.2.flatIter.map fun q => (p.1.text :: q.1, q.2)) := by
        refine permRel_flatMap (fun p q hpq => ?_) h3
        obtain ⟨⟨hp, hqc⟩, hnorm, hpl⟩ := hpq
        have hqm := h2.mem_iff.1 hqc
        obtain ⟨l, h4, h5⟩ := ih p hp q.2 (hu.child hp) (hu'.child hqm) (hf.child hp) (hf'.child hqm) hpl
        refine ⟨l.map fun x => (q.1.text :: x.1, x.2), allPairs_map (fun x y hxy => ⟨?_, hxy.2⟩) h4, h5.map _⟩
        rw [norm_text hnorm, hxy.1]
      obtain ⟨l, h4, h5⟩ := key
      refine ⟨e'.map (fun x => ([], x)) ++ l, allPairs_append (allPairs_map (fun _ _ h => ⟨rfl, h⟩) he) h4, ?_⟩
      exact (h5.trans (h2.flatMap_right _)).append_left _
where
  pairs_mem {α : Type} {R : α → α → Prop} {as bs : List α} (h : AllPairs R as bs) :
      AllPairs (fun p q => (p ∈ as ∧ q ∈ bs) ∧ R p q) as bs := by
    induction h with
    | nil => exact .nil
    | cons a b as bs h1 _ ih =>
      refine .cons _ _ _ _ ⟨⟨by simp, by simp⟩, h1⟩ (allPairs_mono (fun x _ y _ h => ?_) ih)
      exact ⟨⟨by simp [h.1.1], by simp [h.1.2]⟩, h.2⟩

/-! ## appending -/

theorem upsert_get {K V N : Type} [DecidableEq N] {norm : K → N} (k : K) (new : V) (upd : V → V) (m : HashMap K V) (q : N) :
    HashMap.get norm q (HashMap.upsert norm k new upd m) =
      if norm k = q then some (match HashMap.get norm q m with | some v => upd v | none => new) else HashMap.get norm q m := by
  induction m with
  | nil => simp only [HashMap.upsert, HashMap.get]
  | cons p m ih =>
    obtain ⟨k', v⟩ := p
    simp only [HashMap.upsert]
    by_cases h : norm k' = norm k
    · rw [if_pos h]
      simp only [HashMap.get, h]
      by_cases h2 : norm k = q <;> simp [h2]
    · rw [if_neg h]
      simp only [HashMap.get]
      by_cases h2 : norm k' = q
      · have : norm k ≠ q := fun e => h (by rw [h2, e])
        simp [h2, this]
      · rw [if_neg h2, if_neg h2, ih]

theorem eqLabel_norm {a b : BlockLabel} (h : EqLabel a b) : a.norm = b.norm := by
  cases h with
  | string => rfl
  | ident a b h => simp [BlockLabel.norm, h]

theorem places_append {ls : List BlockLabel} {x x' : Body} (hx : E x x') : ∀ {ls' : List BlockLabel} {b b' : BlockBody},
    AllPairs EqLabel ls ls' → UniqueLabels b → UniqueLabels b' → NoEmptyLabels b → NoEmptyLabels b' → SamePlaces E b b' →
    SamePlaces E (b.append ls x) (b'.append ls' x') := by
  induction ls with
  | nil =>
    intro ls' b b' hl hu hu' hf hf' h
    cases hl
    cases b with
    | body bs =>
      cases b' with
      | body bs' =>
        simp only [BlockBody.append]
        exact places_body.2 (allPairs_append (places_body.1 h) (.cons _ _ _ _ hx .nil))
      | labels e m => exact absurd h (places_body_labels (hf' e m (.refl _)))
    | labels e m =>
      cases b' with
      | body bs' => exact absurd h (places_labels_body (hf e m (.refl _)))
      | labels e' m' =>
        have hn := hu e m (.refl _)
        have hn' := hu' e' m' (.refl _)
        simp only [BlockBody.append]
        obtain ⟨he, hq⟩ := (places_labels hn hn').1 h
        exact (places_labels hn hn').2 ⟨allPairs_append he (.cons _ _ _ _ hx .nil), hq⟩
  | cons l ls ih =>
    intro ls' b b' hl hu hu' hf hf' h
    cases hl with
    | cons _ l' _ ls' hl hls =>
    have hne : ∀ bs, NoEmptyLabels (.body bs) := fun bs e m hs => by have := sub_body.1 hs; cases this
    cases b with
    | body bs =>
      cases b' with
      | body bs' =>
        simp only [BlockBody.append]
        refine (places_labels (by simp) (by simp)).2 ⟨places_body.1 h, fun q => ?_⟩
        simp only [HashMap.get, ← eqLabel_norm hl]
        split
        · exact ih (b := .default) (b' := .default) hls (uniqueLabels_body _) (uniqueLabels_body _) (hne _) (hne _)
            (places_body.2 .nil)
        · trivial
      | labels e m => exact absurd h (places_body_labels (hf' e m (.refl _)))
    | labels e m =>
      cases b' with
      | body bs' => exact absurd h (places_labels_body (hf e m (.refl _)))
      | labels e' m' =>
        have hn := hu e m (.refl _)
        have hn' := hu' e' m' (.refl _)
        have hA := uniqueLabels_append (ls := l :: ls) (x := x) hu
        have hA' := uniqueLabels_append (ls := l' :: ls') (x := x') hu'
        simp only [BlockBody.append] at hA hA' ⊢
        obtain ⟨he, hq⟩ := (places_labels hn hn').1 h
        refine (places_labels (hA _ _ (.refl _)) (hA' _ _ (.refl _))).2 ⟨he, fun q => ?_⟩
        rw [upsert_get, upsert_get, ← eqLabel_norm hl]
        split
        · have h1 := hq q
          cases h2 : HashMap.get BlockLabel.norm q m with
          | none =>
            cases h3 : HashMap.get BlockLabel.norm q m' with
            | none => exact places_body.2 (.cons _ _ _ _ hx .nil)
            | some w => rw [h2, h3] at h1; exact h1.elim
          | some v =>
            cases h3 : HashMap.get BlockLabel.norm q m' with
            | none => rw [h2, h3] at h1; exact h1.elim
            | some w =>
              rw [h2, h3] at h1
              obtain ⟨k, hk, -⟩ := get_some h2
              obtain ⟨k', hk', -⟩ := get_some h3
              exact ih hls (hu.child hk) (hu'.child hk') (hf.child hk) (hf'.child hk') h1
        · exact hq q
end

end Verif
