import Verif.Proofs.BlocksEqMore
import Verif.Proofs.De
/-! # `==` on blocks indexed by type -/
set_option autoImplicit false

namespace Verif
open Spec Props

/-- nothing but what a history leaves -/
theorem made_built {m : Blocks} (h : Made m) : (m.map fun p => p.1.str).Nodup ∧ ∀ p ∈ m, ∃ hist, Built p.2 hist := by
  induction h with
  | new bs =>
    refine ⟨new_nodup bs, fun p hp => ?_⟩
    obtain ⟨run, -, h⟩ := new_mem hp
    rw [h]
    exact ⟨_, built_extend .default⟩
  | append m b _ ih =>
    have hn := blocks_append_nodup b ih.1
    refine ⟨hn, fun p hp => ?_⟩
    have h1 := get_of_mem (borrow := CowStr.str) hp hn
    rw [blocks_append_get] at h1
    split at h1
    · injection h1 with h1
      rw [← h1]
      cases h2 : HashMap.get CowStr.str p.1.str m with
      | none => exact ⟨_, .append _ _ _ _ .default⟩
      | some c =>
        obtain ⟨k, hk, -⟩ := get_some h2
        obtain ⟨hist, hb⟩ := ih.2 _ hk
        exact ⟨_, .append _ _ _ _ hb⟩
    · obtain ⟨k, hk, -⟩ := get_some h1
      exact ih.2 (k, p.2) hk
  | reorder m m' _ hs ih =>
    have hn := sameTypes_nodup hs ih.1
    refine ⟨hn, fun p hp => ?_⟩
    have h1 := get_of_mem (borrow := CowStr.str) hp hn
    rcases sameTypes_get hs ih.1 p.1.str with ⟨-, h2⟩ | ⟨c, c', h2, h3, h4⟩
    · rw [h1] at h2; cases h2
    · rw [h1] at h3; injection h3 with h3; subst h3
      obtain ⟨k, hk, -⟩ := get_some h2
      obtain ⟨hist, hb⟩ := ih.2 _ hk
      exact ⟨_, .reorder _ _ _ hb h4⟩

theorem made_good {m : Blocks} (h : Made m) : GoodTypes m :=
  ⟨(made_built h).1, fun p hp => by
    obtain ⟨hist, hb⟩ := (made_built h).2 p hp
    exact ⟨built_uniqueLabels hb, built_noEmpty hb⟩⟩

theorem builtBlocks_made {m : Blocks} {h : List Block} (hm : BuiltBlocks m h) : Made m := by
  induction hm with
  | empty => exact .new []
  | append m h b _ ih => exact .append _ _ ih
  | reorder m m' h _ hs ih => exact .reorder _ _ ih hs

theorem made_extend : ∀ (bs : List Block) {m : Blocks}, Made m → Made (m.extend bs)
  | [], _, h => h
  | b :: bs, _, h => made_extend bs (.append _ b h)

section
variable {E : Body → Body → Prop}

theorem contents_get {m m' : Blocks} (hm : GoodTypes m) (hm' : GoodTypes m') :
    SameContents E m m' ↔ ∀ t, OptRel (SamePlaces E) (HashMap.get CowStr.str t m) (HashMap.get CowStr.str t m') := by
  refine forall_congr' fun t => ?_
  constructor
  · rintro ⟨h1, h2⟩
    cases h3 : HashMap.get CowStr.str t m with
    | none =>
      cases h4 : HashMap.get CowStr.str t m' with
      | none => trivial
      | some d =>
        obtain ⟨k, hk, hkt⟩ := get_some h4
        obtain ⟨p, hp, hpt, -⟩ := h2 _ hk hkt
        exact absurd hpt (hget_none.1 h3 p hp)
    | some d =>
      obtain ⟨k, hk, hkt⟩ := get_some h3
      obtain ⟨p, hp, hpt, h5⟩ := h1 _ hk hkt
      have h4 : HashMap.get CowStr.str t m' = some p.2 := by rw [← hpt]; exact get_of_mem (borrow := CowStr.str) hp hm'.1
      rw [h4]
      exact h5
  · intro h
    constructor
    · intro p hp ht
      have h1 : HashMap.get CowStr.str t m = some p.2 := by rw [← ht]; exact get_of_mem (borrow := CowStr.str) hp hm.1
      rw [h1] at h
      cases h2 : HashMap.get CowStr.str t m' with
      | none => rw [h2] at h; exact h.elim
      | some d =>
        rw [h2] at h
        obtain ⟨k, hk, hkt⟩ := get_some h2
        exact ⟨(k, d), hk, hkt, h⟩
    · intro p hp ht
      have h1 : HashMap.get CowStr.str t m' = some p.2 := by rw [← ht]; exact get_of_mem (borrow := CowStr.str) hp hm'.1
      rw [h1] at h
      cases h2 : HashMap.get CowStr.str t m with
      | none => rw [h2] at h; exact h.elim
      | some d =>
        rw [h2] at h
        obtain ⟨k, hk, hkt⟩ := get_some h2
        exact ⟨(k, d), hk, hkt, h⟩

theorem contents_same_left {m m2 m' : Blocks} (hm : GoodTypes m) (hs : SameTypes m m2) (hm2 : GoodTypes m2)
    (hm' : GoodTypes m') (h : SameContents E m m') : SameContents E m2 m' := by
  rw [contents_get hm2 hm']
  intro t
  have h1 := (contents_get hm hm').1 h t
  rcases sameTypes_get hs hm.1 t with ⟨h2, h3⟩ | ⟨c, c', h2, h3, h4⟩
  · rw [h2] at h1; rw [h3]; exact h1
  · rw [h2] at h1; rw [h3]
    cases h5 : HashMap.get CowStr.str t m' with
    | none => rw [h5] at h1; exact h1.elim
    | some d => rw [h5] at h1; exact places_same_left h4 h1

theorem contents_flip {m m' : Blocks} (h : SameContents E m m') : SameContents (fun x y => E y x) m' m := fun t =>
  ⟨fun p hp ht => by
    obtain ⟨p', h1, h2, h3⟩ := (h t).2 p hp ht
    exact ⟨p', h1, h2, places_flip h3⟩,
  fun p hp ht => by
    obtain ⟨p', h1, h2, h3⟩ := (h t).1 p hp ht
    exact ⟨p', h1, h2, places_flip h3⟩⟩

theorem contents_mono {F : Body → Body → Prop} (hF : ∀ x y, E x y → F x y) {m m' : Blocks} (h : SameContents E m m') :
    SameContents F m m' := fun t =>
  ⟨fun p hp ht => by
    obtain ⟨p', h1, h2, h3⟩ := (h t).1 p hp ht
    exact ⟨p', h1, h2, places_mono hF h3⟩,
  fun p hp ht => by
    obtain ⟨p', h1, h2, h3⟩ := (h t).2 p hp ht
    exact ⟨p', h1, h2, places_mono hF h3⟩⟩

theorem contents_refl_iff {m : Blocks} (hm : GoodTypes m) :
    SameContents E m m ↔ ∀ x ∈ (Blocks.flatIter m).map (fun q => q.2.2), E x x := by
  have hf : ∀ x, x ∈ (Blocks.flatIter m).map (fun q => q.2.2) ↔ ∃ p ∈ m, x ∈ p.2.flatIter.map Prod.snd := by
    intro x
    simp only [blocks_flatIter_eq, List.map_flatMap, List.mem_flatMap, List.map_map, Function.comp_def]
  constructor
  · intro h x hx
    obtain ⟨p, hp, hx⟩ := (hf x).1 hx
    obtain ⟨p', hp', ht, h1⟩ := (h p.1.str).1 p hp rfl
    have h2 := get_of_mem (borrow := CowStr.str) hp hm.1
    have h3 := get_of_mem (borrow := CowStr.str) hp' hm.1
    rw [ht, h2] at h3; injection h3 with h3
    rw [← h3] at h1
    exact (places_refl_iff (hm.2 p hp).1).1 h1 x hx
  · intro h t
    have : ∀ p ∈ m, SamePlaces E p.2 p.2 := fun p hp =>
      (places_refl_iff (hm.2 p hp).1).2 fun x hx => h x ((hf x).2 ⟨p, hp, hx⟩)
    exact ⟨fun p hp ht => ⟨p, hp, ht, this p hp⟩, fun p hp ht => ⟨p, hp, ht, this p hp⟩⟩

/-- two blocks found in iterating over `Blocks`: the same type, the same label texts, related bodies -/
abbrev TypedRel (E : Body → Body → Prop) (x y : Str × List Str × Body) : Prop := x.1 = y.1 ∧ x.2.1 = y.2.1 ∧ E x.2.2 y.2.2

theorem permRel_length {α : Type} {R : α → α → Prop} {a b : List α} (h : PermRel R a b) : a.length = b.length := by
  obtain ⟨l, h1, h2⟩ := h
  rw [allPairs_length h1, h2.length_eq]

theorem contents_flatIter {m m' : Blocks} (hm : GoodTypes m) (hm' : GoodTypes m') (h : SameContents E m m') :
    PermRel (TypedRel E) (Blocks.flatIter m) (Blocks.flatIter m') := by
  obtain ⟨c, h1, h2⟩ := (hash_lookup hm.1 hm'.1).2 ((contents_get hm hm').1 h)
  rw [blocks_flatIter_eq, blocks_flatIter_eq]
  have h3 : AllPairs (fun p q => (p ∈ m ∧ q ∈ c) ∧ p.1.str = q.1.str ∧ SamePlaces E p.2 q.2) m c := pairsMem h1
  obtain ⟨l, h4, h5⟩ : PermRel (TypedRel E) (m.flatMap fun p => p.2.flatIter.map fun q => (p.1.str, q.1, q.2))
      (c.flatMap fun p => p.2.flatIter.map fun q => (p.1.str, q.1, q.2)) := by
    refine permRel_flatMap (fun p q hpq => ?_) h3
    obtain ⟨⟨hp, hqc⟩, hn, hpl⟩ := hpq
    have hq := h2.mem_iff.1 hqc
    obtain ⟨l, h4, h5⟩ := places_flatIter (hm.2 p hp).1 (hm'.2 q hq).1 (hm.2 p hp).2 (hm'.2 q hq).2 hpl
    exact ⟨_, allPairs_map (fun x y hxy => ⟨hn, hxy.1, hxy.2⟩) h4, h5.map _⟩
  exact ⟨l, h4, h5.trans (h2.flatMap_right _)⟩
where
  pairsMem {α : Type} {R : α → α → Prop} {as bs : List α} (h : AllPairs R as bs) :
      AllPairs (fun p q => (p ∈ as ∧ q ∈ bs) ∧ R p q) as bs := by
    induction h with
    | nil => exact .nil
    | cons a b as bs h1 _ ih =>
      refine .cons _ _ _ _ ⟨⟨by simp, by simp⟩, h1⟩ (allPairs_mono (fun x _ y _ h => ?_) ih)
      exact ⟨⟨by simp [h.1.1], by simp [h.1.2]⟩, h.2⟩

/-! ## appending -/

/-- related blocks -/
structure BlockRel (E : Body → Body → Prop) (a b : Block) : Prop where
  type : a.type.str = b.type.str
  labels : AllPairs EqLabel a.labels b.labels
  body : E a.body b.body

theorem noEmpty_body (bs : List Body) : NoEmptyLabels (.body bs) := fun e m hs => by have := sub_body.1 hs; cases this

theorem contents_append {m m' : Blocks} (hm : Made m) (hm' : Made m') {b b' : Block} (hb : BlockRel E b b')
    (h : SameContents E m m') : SameContents E (m.append b) (m'.append b') := by
  have g := made_good hm
  have g' := made_good hm'
  rw [contents_get (made_good (.append _ _ hm)) (made_good (.append _ _ hm'))]
  intro t
  rw [blocks_append_get, blocks_append_get, ← hb.type]
  have h1 := (contents_get g g').1 h t
  split
  · cases h2 : HashMap.get CowStr.str t m with
    | none =>
      cases h3 : HashMap.get CowStr.str t m' with
      | none =>
        exact places_append (b := .default) (b' := .default) hb.body hb.labels (uniqueLabels_body _) (uniqueLabels_body _)
          (noEmpty_body _) (noEmpty_body _) (places_body.2 .nil)
      | some d => rw [h2, h3] at h1; exact h1.elim
    | some c =>
      cases h3 : HashMap.get CowStr.str t m' with
      | none => rw [h2, h3] at h1; exact h1.elim
      | some d =>
        rw [h2, h3] at h1
        obtain ⟨k, hk, -⟩ := get_some h2
        obtain ⟨k', hk', -⟩ := get_some h3
        exact places_append hb.body hb.labels (g.2 _ hk).1 (g'.2 _ hk').1 (g.2 _ hk).2 (g'.2 _ hk').2 h1
  · exact h1

theorem contents_extend {bs bs' : List Block} (hb : AllPairs (BlockRel E) bs bs') : ∀ {m m' : Blocks}, Made m → Made m' →
    SameContents E m m' → SameContents E (m.extend bs) (m'.extend bs') := by
  induction hb with
  | nil => intro m m' _ _ h; exact h
  | cons a b as bs h1 _ ih => intro m m' hm hm' h; exact ih (.append _ _ hm) (.append _ _ hm') (contents_append hm hm' h1 h)

theorem places_extend {l l' : List (List BlockLabel × Body)} (hl : AllPairs (fun p q => AllPairs EqLabel p.1 q.1 ∧ E p.2 q.2) l l') :
    ∀ {b b' : BlockBody} {h h' : List (List BlockLabel × Body)}, Built b h → Built b' h' → SamePlaces E b b' →
      SamePlaces E (b.extend l) (b'.extend l') := by
  induction hl with
  | nil => intro b b' _ _ _ _ h; exact h
  | cons p q l l' h1 _ ih =>
    obtain ⟨ls, x⟩ := p
    obtain ⟨ls', x'⟩ := q
    intro b b' _ _ hb hb' h
    exact ih (.append _ _ ls x hb) (.append _ _ ls' x' hb') (places_append h1.2 h1.1 (built_uniqueLabels hb)
      (built_uniqueLabels hb') (built_noEmpty hb) (built_noEmpty hb') h)

theorem groupBlocks_pairs {bs bs' : List Block} (h : AllPairs (BlockRel E) bs bs') :
    AllPairs (fun g g' => g.1.str = g'.1.str ∧ AllPairs (BlockRel E) g.2 g'.2) (groupBlocks bs) (groupBlocks bs') := by
  induction h with
  | nil => exact .nil
  | cons a b as bs h1 _ ih =>
    simp only [groupBlocks]
    generalize groupBlocks as = gs at ih
    generalize groupBlocks bs = gs' at ih
    cases ih with
    | nil => exact .cons _ _ _ _ ⟨h1.type, .cons _ _ _ _ h1 .nil⟩ .nil
    | cons g g' gs gs' h2 h3 =>
      obtain ⟨t, run⟩ := g
      obtain ⟨t', run'⟩ := g'
      have h4 : t.str = t'.str := h2.1
      simp only [h4, h1.type]
      split
      · exact .cons _ _ _ _ ⟨h1.type, .cons _ _ _ _ h1 h2.2⟩ h3
      · exact .cons _ _ _ _ ⟨h1.type, .cons _ _ _ _ h1 .nil⟩ (.cons _ _ _ _ h2 h3)

theorem insertGroups_pairs {gs gs' : List (CowStr × List Block)}
    (h : AllPairs (fun g g' => g.1.str = g'.1.str ∧ AllPairs (BlockRel E) g.2 g'.2) gs gs') : ∀ {m m' : Blocks},
    (∀ t, OptRel (SamePlaces E) (HashMap.get CowStr.str t m) (HashMap.get CowStr.str t m')) →
    ∀ t, OptRel (SamePlaces E) (HashMap.get CowStr.str t (Blocks.insertGroups m gs))
      (HashMap.get CowStr.str t (Blocks.insertGroups m' gs')) := by
  induction h with
  | nil => intro m m' h; exact h
  | cons g g' gs gs' h1 _ ih =>
    obtain ⟨t, run⟩ := g
    obtain ⟨t', run'⟩ := g'
    intro m m' h
    simp only [Blocks.insertGroups]
    refine ih fun q => ?_
    have ht : t.str = t'.str := h1.1
    rw [insert_get, insert_get, ← ht]
    split
    · exact places_extend (allPairs_map (fun a b hab => ⟨hab.labels, hab.body⟩) h1.2) .default .default (places_body.2 .nil)
    · exact h q

theorem contents_new {bs bs' : List Block} (h : AllPairs (BlockRel E) bs bs') :
    SameContents E (Blocks.new bs) (Blocks.new bs') :=
  (contents_get (made_good (.new _)) (made_good (.new _))).2 (insertGroups_pairs (groupBlocks_pairs h) fun _ => trivial)

end

end Verif
