import Verif.Proofs.ValueEq
import Verif.Proofs.Alike
/-! # Equality of legacy values is an equivalence and is respected by merging -/
set_option autoImplicit false

namespace Verif
open Spec Props

section
variable {F : F64 → F64 → Prop}

theorem entryRel_norm {p q : Key × Value} (h : EntryRel F p q) : p.1.norm = q.1.norm := h.1

/-! ## symmetry, transitivity, reflexivity -/

theorem eqValue_flip_both :
    (∀ v : Value, ∀ w, EqValue F v w → EqValue (fun x y => F y x) w v) ∧
    ∀ m : MapValues, ∀ n, EqMap F m n → EqMap (fun x y => F y x) n m := by
  apply Value.inductBoth
  · intro v h1 h2 h3 w h
    cases h <;> simp [Value.variant] at h1 h2 h3 <;> first | (constructor; done) | (constructor; assumption)
  · intro l ih w h
    have h0 := eqValue_list.mp h; clear h; obtain ⟨b, rfl, h⟩ := h0
    exact eqValue_list.mpr ⟨l, rfl, allPairs_flip (allPairs_mono (fun a ha b _ h => ih a ha b h) h)⟩
  · intro l ih w h
    have h0 := eqValue_object.mp h; clear h; obtain ⟨b, rfl, h⟩ := h0
    exact eqValue_object.mpr ⟨l, rfl, allPairs_flip (allPairs_mono (fun a ha b _ h => ih a ha b h) h)⟩
  · intro b ih w h
    cases b with
    | unmerged l =>
      have h0 := eqValue_unmergedBlock.mp h; clear h; obtain ⟨b, rfl, h⟩ := h0
      exact eqValue_unmergedBlock.mpr ⟨l, rfl, allPairs_flip
        (allPairs_mono (fun a ha b _ h => (⟨h.1.symm, ih a ha b.2 h.2⟩ : BodyRel (fun x y => F y x) b a)) h)⟩
    | merged l =>
      obtain ⟨b, rfl, c, h, hp⟩ := eqValue_mergedBlock.mp h
      have h' := allPairs_flip (allPairs_mono (S := fun a b => BodyRel (fun x y => F y x) b a)
        (fun a ha b _ h => ⟨h.1.symm, ih a ha b.2 h.2⟩) h)
      obtain ⟨a', h1, h2⟩ := allPairs_perm hp (allPairs_flip h')
      exact eqValue_mergedBlock.mpr ⟨l, rfl, a', allPairs_flip h2, h1⟩
  · intro m ih w h
    cases m with
    | unmerged l =>
      have h0 := eqMap_unmerged.mp h; clear h; obtain ⟨b, rfl, h⟩ := h0
      exact eqMap_unmerged.mpr ⟨l, rfl, allPairs_flip
        (allPairs_mono (fun a ha b _ h => (⟨h.1.symm, ih a ha b.2 h.2⟩ : EntryRel (fun x y => F y x) b a)) h)⟩
    | merged l =>
      obtain ⟨b, rfl, c, h, hp⟩ := eqMap_merged.mp h
      have h' := allPairs_mono (S := fun a b => EntryRel (fun x y => F y x) b a)
        (fun a ha b _ h => ⟨h.1.symm, ih a ha b.2 h.2⟩) h
      obtain ⟨a', h1, h2⟩ := allPairs_perm hp h'
      exact eqMap_merged.mpr ⟨l, rfl, a', allPairs_flip h2, h1⟩

theorem allPairs_comp {α : Type} {R S : α → α → Prop} {as bs : List α} (h : AllPairs R as bs) :
    ∀ {cs : List α}, AllPairs S bs cs → AllPairs (fun a c => ∃ b ∈ bs, R a b ∧ S b c) as cs := by
  induction h with
  | nil => intro cs h; cases h; exact .nil
  | cons a b as bs h1 _ ih =>
    intro cs h
    cases h with
    | cons _ c _ cs h2 h3 =>
      exact .cons _ _ _ _ ⟨b, by simp, h1, h2⟩ (allPairs_mono (fun _ _ _ _ ⟨b, hb, h⟩ => ⟨b, by simp [hb], h⟩) (ih h3))

theorem eqValue_trans_both (hF : ∀ x y z, F x y → F y z → F x z) :
    (∀ v : Value, ∀ w u, EqValue F v w → EqValue F w u → EqValue F v u) ∧
    ∀ m : MapValues, ∀ n o, EqMap F m n → EqMap F n o → EqMap F m o := by
  apply Value.inductBoth
  · intro v h1 h2 h3 w u h g
    cases h <;> simp [Value.variant] at h1 h2 h3 <;> cases g <;>
      first | (constructor; done) | (constructor; rename_i a _ b; exact hF _ _ _ a b)
  · intro l ih w u h g
    have h0 := eqValue_list.mp h; clear h; obtain ⟨b, rfl, h⟩ := h0
    have g0 := eqValue_list.mp g; clear g; obtain ⟨c, rfl, g⟩ := g0
    exact eqValue_list.mpr ⟨c, rfl, allPairs_mono (fun a ha c _ ⟨b, _, h, g⟩ => ih a ha b c h g) (allPairs_comp h g)⟩
  · intro l ih w u h g
    have h0 := eqValue_object.mp h; clear h; obtain ⟨b, rfl, h⟩ := h0
    have g0 := eqValue_object.mp g; clear g; obtain ⟨c, rfl, g⟩ := g0
    exact eqValue_object.mpr ⟨c, rfl, allPairs_mono (fun a ha c _ ⟨b, _, h, g⟩ => ih a ha b c h g) (allPairs_comp h g)⟩
  · intro b ih w u h g
    have step : ∀ {l m n : List (List Str × MapValues)}, l = b.entries → AllPairs (BodyRel F) l m → AllPairs (BodyRel F) m n →
        AllPairs (BodyRel F) l n := by
      intro l m n hl h g
      subst hl
      exact allPairs_mono (fun a ha c _ ⟨b, _, h, g⟩ => ⟨h.1.trans g.1, ih a ha b.2 c.2 h.2 g.2⟩) (allPairs_comp h g)
    cases b with
    | unmerged l =>
      have h0 := eqValue_unmergedBlock.mp h; clear h; obtain ⟨b, rfl, h⟩ := h0
      have g0 := eqValue_unmergedBlock.mp g; clear g; obtain ⟨c, rfl, g⟩ := g0
      exact eqValue_unmergedBlock.mpr ⟨c, rfl, step rfl h g⟩
    | merged l =>
      obtain ⟨b, rfl, c, h, hp⟩ := eqValue_mergedBlock.mp h
      obtain ⟨d, rfl, e, g, gp⟩ := eqValue_mergedBlock.mp g
      obtain ⟨e', h1, h2⟩ := allPairs_perm hp.symm (allPairs_flip g)
      exact eqValue_mergedBlock.mpr ⟨d, rfl, e', step rfl h (allPairs_flip h2), h1.trans gp⟩
  · intro m ih w u h g
    have step : ∀ {l n o : List (Key × Value)}, l = m.entries → AllPairs (EntryRel F) l n → AllPairs (EntryRel F) n o →
        AllPairs (EntryRel F) l o := by
      intro l m n hl h g
      subst hl
      exact allPairs_mono (fun a ha c _ ⟨b, _, h, g⟩ => ⟨h.1.trans g.1, ih a ha b.2 c.2 h.2 g.2⟩) (allPairs_comp h g)
    cases m with
    | unmerged l =>
      have h0 := eqMap_unmerged.mp h; clear h; obtain ⟨b, rfl, h⟩ := h0
      have g0 := eqMap_unmerged.mp g; clear g; obtain ⟨c, rfl, g⟩ := g0
      exact eqMap_unmerged.mpr ⟨c, rfl, step rfl h g⟩
    | merged l =>
      obtain ⟨b, rfl, c, h, hp⟩ := eqMap_merged.mp h
      obtain ⟨d, rfl, e, g, gp⟩ := eqMap_merged.mp g
      obtain ⟨e', h1, h2⟩ := allPairs_perm hp.symm (allPairs_flip g)
      exact eqMap_merged.mpr ⟨d, rfl, e', step rfl h (allPairs_flip h2), h1.trans gp⟩

/-- A hash map paired with a reordering of itself is paired with itself. -/
theorem pairs_self {K V N : Type} {norm : K → N} {S : K × V → K × V → Prop} (hS : ∀ p q, S p q → norm p.1 = norm q.1)
    {a c : List (K × V)} (h : AllPairs S a c) (hp : c.Perm a) (hn : (a.map fun p => norm p.1).Nodup) : ∀ p ∈ a, S p p := by
  intro p hpa
  obtain ⟨q, hq, h1⟩ := allPairs_left h p hpa
  have : q = p := by
    have hk := hS _ _ h1
    exact nodup_key (f := fun p => norm p.1) hn (hp.mem_iff.mp hq) hpa hk.symm
  rwa [this] at h1

theorem mem_listLeaves {l : List Value} {x : Value} : x ∈ listLeaves l ↔ ∃ v ∈ l, x ∈ leaves v := by
  induction l with
  | nil => simp [listLeaves]
  | cons v l ih => simp [listLeaves, ih]
theorem mem_mapsLeaves {l : List MapValues} {x : Value} : x ∈ mapsLeaves l ↔ ∃ v ∈ l, x ∈ mapLeaves v := by
  induction l with
  | nil => simp [mapsLeaves]
  | cons v l ih => simp [mapsLeaves, ih]
theorem mem_entriesLeaves {l : List (Key × Value)} {x : Value} : x ∈ entriesLeaves l ↔ ∃ p ∈ l, x ∈ leaves p.2 := by
  induction l with
  | nil => simp [entriesLeaves]
  | cons v l ih => obtain ⟨k, v⟩ := v; simp [entriesLeaves, ih]
theorem mem_bodiesLeaves {l : List (List Str × MapValues)} {x : Value} : x ∈ bodiesLeaves l ↔ ∃ p ∈ l, x ∈ mapLeaves p.2 := by
  induction l with
  | nil => simp [bodiesLeaves]
  | cons v l ih => obtain ⟨k, v⟩ := v; simp [bodiesLeaves, ih]
theorem mem_mapLeaves {m : MapValues} {x : Value} : x ∈ mapLeaves m ↔ ∃ p ∈ m.entries, x ∈ leaves p.2 := by
  cases m <;> exact mem_entriesLeaves
theorem mem_blockLeaves {m : VBlock} {x : Value} : x ∈ blockLeaves m ↔ ∃ p ∈ m.entries, x ∈ mapLeaves p.2 := by
  cases m <;> exact mem_bodiesLeaves

theorem eqValue_refl_both :
    (∀ v : Value, UniqueKeys (.val v) → (EqValue F v v ↔ ∀ x, Value.float x ∈ leaves v → F x x)) ∧
    ∀ m : MapValues, UniqueKeys (.map m) → (EqMap F m m ↔ ∀ x, Value.float x ∈ mapLeaves m → F x x) := by
  apply Value.inductBoth
  · intro v h1 h2 h3 _
    cases v <;> simp [Value.variant] at h1 h2 h3 <;> simp only [leaves]
    case float =>
      constructor
      · intro h y hy; simp at hy; subst hy; cases h; assumption
      · intro h; exact .float _ _ (h _ (by simp))
    all_goals exact ⟨fun _ x hx => by simp at hx, fun _ => by constructor⟩
  · intro l ih hu
    rw [eqValue_list]
    have hu' := fun v hv => uniqueKeys_child hu (.list l v hv)
    constructor
    · rintro ⟨_, e, h⟩ x hx
      cases e
      obtain ⟨v, hv, hx⟩ := mem_listLeaves.mp hx
      exact (ih v hv (hu' v hv)).mp (allPairs_self.mp h v hv) x hx
    · intro h
      exact ⟨l, rfl, allPairs_self.mpr fun v hv => (ih v hv (hu' v hv)).mpr fun x hx => h x (mem_listLeaves.mpr ⟨v, hv, hx⟩)⟩
  · intro l ih hu
    rw [eqValue_object]
    have hu' := fun v hv => uniqueKeys_child hu (.object l v hv)
    constructor
    · rintro ⟨_, e, h⟩ x hx
      cases e
      obtain ⟨v, hv, hx⟩ := mem_mapsLeaves.mp hx
      exact (ih v hv (hu' v hv)).mp (allPairs_self.mp h v hv) x hx
    · intro h
      exact ⟨l, rfl, allPairs_self.mpr fun v hv => (ih v hv (hu' v hv)).mpr fun x hx => h x (mem_mapsLeaves.mpr ⟨v, hv, hx⟩)⟩
  · intro b ih hu
    have hub := uniqueKeys_child hu (.block b)
    have hu' := fun p hp => uniqueKeys_child hub (.body b p hp)
    simp only [leaves]
    constructor
    · intro h x hx
      obtain ⟨p, hp, hx⟩ := mem_blockLeaves.mp hx
      refine (ih p hp (hu' p hp)).mp ?_ x hx
      cases b with
      | unmerged l =>
        obtain ⟨_, e, h⟩ := eqValue_unmergedBlock.mp h
        cases e
        exact (allPairs_self.mp h p hp).2
      | merged l =>
        obtain ⟨_, e, c, h, hperm⟩ := eqValue_mergedBlock.mp h
        cases e
        exact (pairs_self (norm := id) (fun _ _ h => h.1) h hperm (hub.2 l (.refl _)) p hp).2
    · intro h
      have hall : ∀ p ∈ b.entries, BodyRel F p p := fun p hp =>
        ⟨rfl, (ih p hp (hu' p hp)).mpr fun x hx => h x (mem_blockLeaves.mpr ⟨p, hp, hx⟩)⟩
      cases b with
      | unmerged l => exact eqValue_unmergedBlock.mpr ⟨l, rfl, allPairs_self.mpr hall⟩
      | merged l => exact eqValue_mergedBlock.mpr ⟨l, rfl, l, allPairs_self.mpr hall, .refl _⟩
  · intro m ih hu
    have hu' := fun p hp => uniqueKeys_child hu (.entry m p hp)
    constructor
    · intro h x hx
      obtain ⟨p, hp, hx⟩ := mem_mapLeaves.mp hx
      refine (ih p hp (hu' p hp)).mp ?_ x hx
      cases m with
      | unmerged l =>
        obtain ⟨_, e, h⟩ := eqMap_unmerged.mp h
        cases e
        exact (allPairs_self.mp h p hp).2
      | merged l =>
        obtain ⟨_, e, c, h, hperm⟩ := eqMap_merged.mp h
        cases e
        exact (pairs_self (norm := Key.norm) (fun _ _ h => h.1) h hperm (hu.1 l (.refl _)) p hp).2
    · intro h
      have hall : ∀ p ∈ m.entries, EntryRel F p p := fun p hp =>
        ⟨rfl, (ih p hp (hu' p hp)).mpr fun x hx => h x (mem_mapLeaves.mpr ⟨p, hp, hx⟩)⟩
      cases m with
      | unmerged l => exact eqMap_unmerged.mpr ⟨l, rfl, allPairs_self.mpr hall⟩
      | merged l => exact eqMap_merged.mpr ⟨l, rfl, l, allPairs_self.mpr hall, .refl _⟩

/-! ## merging -/

theorem optRel_none {V : Type} {R : V → V → Prop} {o : Option V} (h : OptRel R none o) : o = none := by
  cases o <;> first | rfl | exact h.elim

theorem optRel_some {V : Type} {R : V → V → Prop} {v : V} {o : Option V} (h : OptRel R (some v) o) : ∃ w, o = some w ∧ R v w := by
  cases o with
  | none => exact h.elim
  | some w => exact ⟨w, rfl, h⟩

theorem optRel_or {V : Type} {R : V → V → Prop} {a b c d : Option V} (h : OptRel R a b) (g : OptRel R c d) :
    OptRel R (a.or c) (b.or d) := by
  cases a <;> cases b <;> first | exact h.elim | exact g | exact h

theorem pairs_valuesUnder {K V N : Type} [DecidableEq N] {norm : K → N} {R : V → V → Prop} {a c : List (K × V)}
    (h : AllPairs (fun p q => norm p.1 = norm q.1 ∧ R p.2 q.2) a c) (q : N) :
    AllPairs R (valuesUnder norm q a) (valuesUnder norm q c) := by
  induction h with
  | nil => exact .nil
  | cons p p' a c h1 _ ih =>
    obtain ⟨k, v⟩ := p; obtain ⟨l, w⟩ := p'
    simp only [valuesUnder, ← h1.1]
    split
    · exact .cons _ _ _ _ h1.2 ih
    · exact ih

theorem allPairs_getLast? {V : Type} {R : V → V → Prop} {a c : List V} (h : AllPairs R a c) : OptRel R a.getLast? c.getLast? := by
  induction h with
  | nil => trivial
  | cons v w a c h1 h2 ih =>
    cases h2 with
    | nil => exact h1
    | cons v' w' a c h3 h4 => simpa [List.getLast?_cons_cons] using ih

theorem extend_get {m es : List (List Str × MapValues)} (q : List Str) :
    HashMap.get id q (HashMap.extend id m es) = ((valuesUnder id q es).getLast?).or (HashMap.get id q m) := by
  have := c34_extend_merged (id : List Str → List Str) m es q
  simpa [KVP.extend, KVP.getSingle] using this

theorem valuesUnder_getLast {K V N : Type} [DecidableEq N] {norm : K → N} {l : List (K × V)} (hn : (l.map fun p => norm p.1).Nodup) (q : N) :
    (valuesUnder norm q l).getLast? = HashMap.get norm q l := by
  rw [hashMap_get_values]
  have h1 := valuesUnder_length_le_one norm q l hn
  match hv : valuesUnder norm q l, h1 with
  | [], _ => simp
  | [v], _ => simp
  | _ :: _ :: _, h1 => simp at h1

/-- Both invariants of values that were merged. -/
abbrev Good (v : Value) : Prop := BlockMerged v ∧ UniqueKeys (.val v)

theorem combined_eq {o1 o2 v1 v2 : Value} (go1 : Good o1) (go2 : Good o2) (g1 : Good v1) (g2 : Good v2) (ho : EqValue F o1 o2)
    (hv : EqValue F v1 v2) (hs : MayShare o1 v1) : EqValue F (combined (some o1) v1) (combined (some o2) v2) := by
  cases hs with
  | objects a b =>
    obtain ⟨a', rfl, h1⟩ := eqValue_object.mp ho
    obtain ⟨b', rfl, h2⟩ := eqValue_object.mp hv
    simp only [combined]
    refine eqValue_object.mpr ⟨_, rfl, ?_⟩
    clear go1 go2 ho
    induction h1 with
    | nil => exact h2
    | cons x y as bs h _ ih => exact .cons _ _ _ _ h ih
  | blocks a b =>
    obtain ⟨ma, rfl, na⟩ := go1.1 a rfl
    obtain ⟨mb, rfl, nb⟩ := g1.1 b rfl
    obtain ⟨ma', rfl, h1⟩ := eqValue_mergedBlock.mp ho
    obtain ⟨mb', rfl, h2⟩ := eqValue_mergedBlock.mp hv
    have na' : (ma'.map fun p => id p.1).Nodup := by obtain ⟨m, e, h⟩ := go2.1 _ rfl; cases e; exact h
    have nb' : (mb'.map fun p => id p.1).Nodup := by obtain ⟨m, e, h⟩ := g2.1 _ rfl; cases e; exact h
    have na : (ma.map fun p => id p.1).Nodup := na
    have nb : (mb.map fun p => id p.1).Nodup := nb
    simp only [combined, KVP.extend, KVP.entries]
    refine eqValue_mergedBlock.mpr ⟨_, rfl, (hash_lookup (norm := id) (extend_nodup id _ _ na) (extend_nodup id _ _ na')).mpr ?_⟩
    intro q
    rw [extend_get, extend_get, valuesUnder_getLast nb, valuesUnder_getLast nb']
    exact optRel_or ((hash_lookup nb nb').mp h2 q) ((hash_lookup na na').mp h1 q)

theorem combinedAll_eq {vs ws : List Value} (h : AllPairs (EqValue F) vs ws) : ∀ {o p : Option Value},
    OptRel (EqValue F) o p → (∀ v ∈ vs, Good v) → (∀ v ∈ ws, Good v) → (∀ x ∈ o, Good x) → (∀ x ∈ p, Good x) →
    vs.Pairwise MayShare → (∀ x ∈ o, ∀ v ∈ vs, MayShare x v) → OptRel (EqValue F) (combinedAll o vs) (combinedAll p ws) := by
  induction h with
  | nil => intro o p h _ _ _ _ _ _; exact h
  | cons v w vs ws h1 h2 ih =>
    intro o p hop hv hw ho hp hs hos
    have hs' := List.pairwise_cons.mp hs
    have hg1 := hv v (by simp)
    have hg2 := hw w (by simp)
    have hall : ∀ u ∈ vs, Good u := fun u hu => hv u (by simp [hu])
    have hall' : ∀ u ∈ ws, Good u := fun u hu => hw u (by simp [hu])
    show OptRel _ (combinedAll (some (combined o v)) vs) (combinedAll (some (combined p w)) ws)
    cases o with
    | none =>
      rw [optRel_none hop]
      refine ih (o := some v) (p := some w) h1 hall hall' ?_ ?_ hs'.2 ?_
      · intro x hx; cases hx; exact hg1
      · intro x hx; cases hx; exact hg2
      · intro x hx u hu; cases hx; exact hs'.1 u hu
    | some o =>
      obtain ⟨p', rfl, hR⟩ := optRel_some hop
      have hm := hos o rfl v (by simp)
      have hm' : MayShare p' w := (mayShare_congr (eqValue_variant hR).symm (eqValue_variant h1).symm).mp hm
      refine ih (o := some (combined (some o) v)) (p := some (combined (some p') w)) ?_ hall hall' ?_ ?_ hs'.2 ?_
      · exact combined_eq (ho o rfl) (hp p' rfl) hg1 hg2 hR h1 hm
      · intro x hx; cases hx; exact combined_unique _ _ (ho o rfl) hg1 hm
      · intro x hx; cases hx; exact combined_unique _ _ (hp p' rfl) hg2 hm'
      · intro x hx u hu; cases hx
        exact (mayShare_congr (combined_variant hm) rfl).mpr (hs'.1 u hu)

theorem noClash_rel {a b : List (Key × Value)} (h : AllPairs (EntryRel F) a b) : NoClash a → NoClash b := by
  unfold NoClash
  induction h with
  | nil => intro _; exact .nil
  | cons p q a b h1 h2 ih =>
    intro hp
    have hp' := List.pairwise_cons.mp hp
    refine List.pairwise_cons.mpr ⟨?_, ih hp'.2⟩
    intro r hr he
    obtain ⟨s, hs, h3⟩ := allPairs_right h2 r hr
    have := hp'.1 s hs (h1.1.trans (he.trans h3.1.symm))
    exact (mayShare_congr (eqValue_variant h1.2).symm (eqValue_variant h3.2).symm).mp this

/-- transporting a merge of one list to an equal list -/
theorem transport {α β : Type} {R : α → α → Prop} {S : β → β → Prop} {M : α → β → Prop} {l l' : List α} {r : List β}
    (hR : AllPairs R l l') (hM : AllPairs M l r) (h : ∀ a ∈ l, ∀ b ∈ l', ∀ x, R a b → M a x → ∃ y, M b y ∧ S x y) :
    ∃ r', AllPairs M l' r' ∧ AllPairs S r r' := by
  induction hR generalizing r with
  | nil => cases hM; exact ⟨[], .nil, .nil⟩
  | cons a b as bs h1 _ ih =>
    cases hM with
    | cons _ x _ xs h2 h3 =>
      obtain ⟨y, h4, h5⟩ := h a (by simp) b (by simp) x h1 h2
      obtain ⟨r', h6, h7⟩ := ih h3 fun a ha b hb => h a (by simp [ha]) b (by simp [hb])
      exact ⟨y :: r', .cons _ _ _ _ h4 h6, .cons _ _ _ _ h5 h7⟩

theorem merge_eq_both :
    (∀ v : Value, ∀ w x, UniqueKeys (.val v) → UniqueKeys (.val w) → EqValue F v w → v.merge = .ok x →
      ∃ y, w.merge = .ok y ∧ EqValue F x y) ∧
    ∀ m : MapValues, ∀ n x, UniqueKeys (.map m) → UniqueKeys (.map n) → EqMap F m n → Value.mergeMap m = .ok x →
      ∃ y, Value.mergeMap n = .ok y ∧ EqMap F x y := by
  apply Value.inductBoth
  · intro v h1 h2 h3 w x hv hw he h
    have : x = v := by
      cases v <;> simp [Value.variant] at h1 h2 h3 <;> (simp only [Value.merge, Except.ok.injEq] at h; exact h.symm)
    subst this
    refine ⟨w, ?_, he⟩
    have hvar := eqValue_variant he
    cases w <;> simp [Value.variant] at hvar <;> first | (simp [Value.merge]; done) | exact absurd hvar.symm h1 | exact absurd hvar.symm h2 | exact absurd hvar.symm h3
  · intro l ih w x hv hw he h
    obtain ⟨b, rfl, hb⟩ := eqValue_list.mp he
    simp only [Value.merge] at h
    obtain ⟨r, h', rfl⟩ := except_map_eq h
    obtain ⟨r', h1, h2⟩ := transport hb (mergeList_ok.mp h') fun a ha c hc x hR hM =>
      ih a ha c x (uniqueKeys_child hv (.list _ _ ha)) (uniqueKeys_child hw (.list _ _ hc)) hR hM
    exact ⟨.list r', by simp [Value.merge, mergeList_ok.mpr h1, Except.map], eqValue_list.mpr ⟨r', rfl, h2⟩⟩
  · intro l ih w x hv hw he h
    obtain ⟨b, rfl, hb⟩ := eqValue_object.mp he
    simp only [Value.merge] at h
    obtain ⟨r, h', rfl⟩ := except_map_eq h
    obtain ⟨r', h1, h2⟩ := transport hb (mergeMaps_ok.mp h') fun a ha c hc x hR hM =>
      ih a ha c x (uniqueKeys_child hv (.object _ _ ha)) (uniqueKeys_child hw (.object _ _ hc)) hR hM
    exact ⟨.object r', by simp [Value.merge, mergeMaps_ok.mpr h1, Except.map], eqValue_object.mpr ⟨r', rfl, h2⟩⟩
  · intro b ih w x hv hw he h
    have hub := uniqueKeys_child hv (.block b)
    simp only [Value.merge, mergeBlock_eq] at h
    obtain ⟨es, h', rfl⟩ := except_map_eq h
    cases b with
    | unmerged l =>
      obtain ⟨c, rfl, hc⟩ := eqValue_unmergedBlock.mp he
      have hwb := uniqueKeys_child hw (.block _)
      obtain ⟨r', h1, h2⟩ := transport (S := BodyRel F) hc (mergeBodies_ok.mp h') fun a ha c hc x hR hM => by
        obtain ⟨y, h3, h4⟩ := ih a ha c.2 x.2 (uniqueKeys_child hub (.body _ _ ha)) (uniqueKeys_child hwb (.body _ _ hc)) hR.2 hM.2
        exact ⟨(c.1, y), ⟨rfl, h3⟩, hM.1.symm.trans hR.1, h4⟩
      refine ⟨.block (.merged (HashMap.collect id r')), by simp [Value.merge, mergeBlock_eq, KVP.entries, mergeBodies_ok.mpr h1, Except.map], ?_⟩
      have n1 : ∀ es : List (List Str × MapValues), ((HashMap.collect id es).map fun p => id p.1).Nodup := fun es =>
        extend_nodup id [] es (by simp)
      refine eqValue_mergedBlock.mpr ⟨_, rfl, (hash_lookup (n1 _) (n1 _)).mpr fun q => ?_⟩
      simp only [HashMap.collect, extend_get]
      exact optRel_or (allPairs_getLast? (pairs_valuesUnder h2 q)) trivial
    | merged l =>
      obtain ⟨l', rfl, c, hc, hp⟩ := eqValue_mergedBlock.mp he
      have hwb := uniqueKeys_child hw (.block _)
      obtain ⟨r, h1, h2⟩ := transport (S := BodyRel F) hc (mergeBodies_ok.mp h') fun a ha c hc x hR hM => by
        obtain ⟨y, h3, h4⟩ := ih a ha c.2 x.2 (uniqueKeys_child hub (.body _ _ ha))
          (uniqueKeys_child hwb (.body _ _ (hp.mem_iff.mp hc))) hR.2 hM.2
        exact ⟨(c.1, y), ⟨rfl, h3⟩, hM.1.symm.trans hR.1, h4⟩
      obtain ⟨r', h3, h4⟩ := allPairs_perm hp (allPairs_flip h1)
      have h4 := allPairs_flip h4
      have nl : (l.map fun p => id p.1).Nodup := hub.2 l (.refl _)
      have nl' : (l'.map fun p => id p.1).Nodup := hwb.2 l' (.refl _)
      have e1 : (es.map fun p => id p.1) = l.map fun p => id p.1 :=
        pairs_nodup (norm := id) (fun _ _ h => h.1) (mergeBodies_ok.mp h')
      have e2 : (r'.map fun p => id p.1) = l'.map fun p => id p.1 := pairs_nodup (norm := id) (fun _ _ h => h.1) h4
      refine ⟨.block (.merged (HashMap.collect id r')), by simp [Value.merge, mergeBlock_eq, KVP.entries, mergeBodies_ok.mpr h4, Except.map], ?_⟩
      rw [collect_distinct id es (by rw [e1]; exact nl), collect_distinct id r' (by rw [e2]; exact nl')]
      exact eqValue_mergedBlock.mpr ⟨_, rfl, r, h2, h3.symm⟩
  · intro m ih n x hv hw he h
    cases m with
    | merged m =>
      simp only [Value.mergeMap, Except.ok.injEq] at h
      subst h
      obtain ⟨b, rfl, -⟩ := eqMap_merged.mp he
      exact ⟨_, rfl, he⟩
    | unmerged l =>
      obtain ⟨l', rfl, hl⟩ := eqMap_unmerged.mp he
      simp only [Value.mergeMap] at h
      obtain ⟨a, h', rfl⟩ := except_map_eq h
      obtain ⟨es, h1, h2⟩ := mergeEntries_ok.mp h'
      obtain ⟨es', h3, h4⟩ := transport (S := EntryRel F) hl h1 fun a ha c hc x hR hM => by
        obtain ⟨y, h3, h4⟩ := ih a ha c.2 x.2 (uniqueKeys_child hv (.entry _ _ ha)) (uniqueKeys_child hw (.entry _ _ hc)) hR.2 hM.2
        exact ⟨(c.1, y), ⟨rfl, h3⟩, by rw [← hM.1]; exact hR.1, h4⟩
      have hnc := (addAll_exists.mp ⟨a, h2⟩).1
      obtain ⟨b, hb⟩ := (addAll_exists (m := []) (es := es')).mpr ⟨noClash_rel h4 hnc, fun _ _ _ h => by simp [HashMap.get] at h⟩
      refine ⟨.merged b, by simp [Value.mergeMap, mergeEntries_ok.mpr ⟨es', h3, hb⟩, Except.map], ?_⟩
      refine eqMap_merged.mpr ⟨_, rfl, (hash_lookup (addAll_nodup h2 (by simp)) (addAll_nodup hb (by simp))).mpr fun q => ?_⟩
      rw [addAll_get h2, addAll_get hb]
      have good : ∀ {l es : List (Key × Value)}, (∀ p ∈ l, UniqueKeys (.val p.2)) →
          AllPairs (fun a b => a.1 = b.1 ∧ a.2.merge = .ok b.2) l es → ∀ v ∈ valuesUnder Key.norm q es, Good v := by
        intro l es hu h v hv
        obtain ⟨p, hp, -, rfl⟩ := mem_valuesUnder.mp hv
        obtain ⟨a, ha, -, hM⟩ := allPairs_right h p hp
        exact ⟨merge_blockMerged hM, merge_unique.1 _ _ (hu a ha) hM⟩
      exact combinedAll_eq (pairs_valuesUnder h4 q) trivial
        (good (fun p hp => uniqueKeys_child hv (.entry _ p hp)) h1) (good (fun p hp => uniqueKeys_child hw (.entry _ p hp)) h3)
        (by simp [HashMap.get]) (by simp [HashMap.get]) (valuesUnder_pairwise hnc q) (by simp [HashMap.get])
/-! ## owned copies -/

theorem ownKey_norm (k : Key) : (ownKey k).norm = k.norm := by cases k <;> rfl

theorem ownList_map (l : List Value) : ownList l = l.map ownValue := by
  induction l with
  | nil => rfl
  | cons v l ih => simp [ownList, ih]
theorem ownMaps_map (l : List MapValues) : ownMaps l = l.map ownMap := by
  induction l with
  | nil => rfl
  | cons v l ih => simp [ownMaps, ih]
theorem ownEntries_map (l : List (Key × Value)) : ownEntries l = l.map fun p => (ownKey p.1, ownValue p.2) := by
  induction l with
  | nil => rfl
  | cons v l ih => obtain ⟨k, v⟩ := v; simp [ownEntries, ih]
theorem ownBodies_map (l : List (List Str × MapValues)) : ownBodies l = l.map fun p => (p.1, ownMap p.2) := by
  induction l with
  | nil => rfl
  | cons v l ih => obtain ⟨k, v⟩ := v; simp [ownBodies, ih]

theorem allPairs_mapRight {α β γ : Type} {R : α → β → Prop} {S : α → γ → Prop} {f : β → γ} {as : List α} {bs : List β}
    (h : AllPairs R as bs) (hS : ∀ a ∈ as, ∀ b, R a b → S a (f b)) : AllPairs S as (bs.map f) := by
  induction h with
  | nil => exact .nil
  | cons a b as bs h1 _ ih => exact .cons _ _ _ _ (hS a (by simp) b h1) (ih fun a ha => hS a (by simp [ha]))

/-- Owning the keys of the right-hand side keeps equality. -/
theorem eqValue_own_both :
    (∀ v : Value, ∀ w, EqValue F v w → EqValue F v (ownValue w)) ∧ ∀ m : MapValues, ∀ n, EqMap F m n → EqMap F m (ownMap n) := by
  apply Value.inductBoth
  · intro v h1 h2 h3 w h
    cases h <;> simp [Value.variant] at h1 h2 h3 <;> simp only [ownValue] <;> first | (constructor; done) | (constructor; assumption)
  · intro l ih w h
    have h0 := eqValue_list.mp h; clear h; obtain ⟨b, rfl, h⟩ := h0
    simp only [ownValue, ownList_map]
    exact eqValue_list.mpr ⟨_, rfl, allPairs_mapRight h fun a ha b h => ih a ha b h⟩
  · intro l ih w h
    have h0 := eqValue_object.mp h; clear h; obtain ⟨b, rfl, h⟩ := h0
    simp only [ownValue, ownMaps_map]
    exact eqValue_object.mpr ⟨_, rfl, allPairs_mapRight h fun a ha b h => ih a ha b h⟩
  · intro b ih w h
    cases b with
    | unmerged l =>
      have h0 := eqValue_unmergedBlock.mp h; clear h; obtain ⟨b, rfl, h⟩ := h0
      simp only [ownValue, ownBodies_map]
      exact eqValue_unmergedBlock.mpr ⟨_, rfl, allPairs_mapRight (S := BodyRel F) (f := fun p => (p.1, ownMap p.2)) h fun a ha b h => ⟨h.1, ih a ha b.2 h.2⟩⟩
    | merged l =>
      obtain ⟨b, rfl, c, h, hp⟩ := eqValue_mergedBlock.mp h
      simp only [ownValue, ownBodies_map]
      exact eqValue_mergedBlock.mpr ⟨_, rfl, _, allPairs_mapRight (S := BodyRel F) (f := fun p => (p.1, ownMap p.2)) h fun a ha b h => ⟨h.1, ih a ha b.2 h.2⟩, hp.map _⟩
  · intro m ih w h
    cases m with
    | unmerged l =>
      have h0 := eqMap_unmerged.mp h; clear h; obtain ⟨b, rfl, h⟩ := h0
      simp only [ownMap, ownEntries_map]
      exact eqMap_unmerged.mpr ⟨_, rfl, allPairs_mapRight h fun a ha b h =>
        ⟨h.1.trans (ownKey_norm _).symm, ih a ha b.2 h.2⟩⟩
    | merged l =>
      obtain ⟨b, rfl, c, h, hp⟩ := eqMap_merged.mp h
      simp only [ownMap, ownEntries_map]
      exact eqMap_merged.mpr ⟨_, rfl, _, allPairs_mapRight h fun a ha b h =>
        ⟨h.1.trans (ownKey_norm _).symm, ih a ha b.2 h.2⟩, hp.map _⟩
theorem allPairs_ofMapRight {α β γ : Type} {R : α → β → Prop} {S : α → γ → Prop} {f : β → γ} {as : List α} {bs : List β}
    (h : AllPairs S as (bs.map f)) (hS : ∀ a ∈ as, ∀ b, S a (f b) → R a b) : AllPairs R as bs := by
  induction as generalizing bs with
  | nil => cases bs with | nil => exact .nil | cons _ _ => cases h
  | cons a as ih =>
    cases bs with
    | nil => cases h
    | cons b bs =>
      cases h with
      | cons _ _ _ _ h1 h2 => exact .cons _ _ _ _ (hS a (by simp) b h1) (ih h2 fun a ha => hS a (by simp [ha]))

theorem perm_map_inv {β γ : Type} {f : β → γ} {b : List β} {c : List γ} (hp : c.Perm (b.map f)) : ∃ c' : List β, c = c'.map f ∧ c'.Perm b := by
  have h : AllPairs (fun y x => x = f y) b (b.map f) := by
    clear hp
    induction b with
    | nil => exact .nil
    | cons y b ih => exact .cons _ _ _ _ rfl ih
  obtain ⟨b', h1, h2⟩ := allPairs_perm hp.symm h
  refine ⟨b', ?_, h1⟩
  clear h1 h hp
  induction h2 with
  | nil => rfl
  | cons a b as bs h1 _ ih => simp [h1, ih]

theorem eqValue_ofOwn_both :
    (∀ v : Value, ∀ w, EqValue F v (ownValue w) → EqValue F v w) ∧ ∀ m : MapValues, ∀ n, EqMap F m (ownMap n) → EqMap F m n := by
  apply Value.inductBoth
  · intro v h1 h2 h3 w h
    cases w with
    | block b =>
      have := eqValue_variant h
      cases b <;> (simp only [ownValue, Value.variant] at this; exact absurd this.symm h3)
    | list b => have := eqValue_variant h; simp only [ownValue, Value.variant] at this; exact absurd this.symm h1
    | object b => have := eqValue_variant h; simp only [ownValue, Value.variant] at this; exact absurd this.symm h2
    | _ => simpa only [ownValue] using h
  · intro l ih w h
    obtain ⟨b, e, h'⟩ := eqValue_list.mp h
    cases w with
    | list c =>
      simp only [ownValue, Value.list.injEq, ownList_map] at e
      subst e
      exact eqValue_list.mpr ⟨_, rfl, allPairs_ofMapRight h' fun a ha b h => ih a ha b h⟩
    | block b => cases b <;> simp [ownValue] at e
    | _ => simp [ownValue] at e
  · intro l ih w h
    obtain ⟨b, e, h'⟩ := eqValue_object.mp h
    cases w with
    | object c =>
      simp only [ownValue, Value.object.injEq, ownMaps_map] at e
      subst e
      exact eqValue_object.mpr ⟨_, rfl, allPairs_ofMapRight h' fun a ha b h => ih a ha b h⟩
    | block b => cases b <;> simp [ownValue] at e
    | _ => simp [ownValue] at e
  · intro b ih w h
    cases b with
    | unmerged l =>
      obtain ⟨b, e, h'⟩ := eqValue_unmergedBlock.mp h
      cases w with
      | block c =>
        cases c <;> simp [ownValue, ownBodies_map] at e
        subst e
        exact eqValue_unmergedBlock.mpr ⟨_, rfl, allPairs_ofMapRight h' fun a ha b h => ⟨h.1, ih a ha b.2 h.2⟩⟩
      | _ => simp [ownValue] at e
    | merged l =>
      obtain ⟨b, e, c, h', hp⟩ := eqValue_mergedBlock.mp h
      cases w with
      | block d =>
        cases d <;> simp [ownValue, ownBodies_map] at e
        subst e
        obtain ⟨c', rfl, hp'⟩ := perm_map_inv hp
        exact eqValue_mergedBlock.mpr ⟨_, rfl, c', allPairs_ofMapRight h' fun a ha b h => ⟨h.1, ih a ha b.2 h.2⟩, hp'⟩
      | _ => simp [ownValue] at e
  · intro m ih w h
    cases m with
    | unmerged l =>
      obtain ⟨b, e, h'⟩ := eqMap_unmerged.mp h
      cases w <;> simp [ownMap, ownEntries_map] at e
      subst e
      exact eqMap_unmerged.mpr ⟨_, rfl, allPairs_ofMapRight h' fun a ha b h => ⟨h.1.trans (ownKey_norm _), ih a ha b.2 h.2⟩⟩
    | merged l =>
      obtain ⟨b, e, c, h', hp⟩ := eqMap_merged.mp h
      cases w <;> simp [ownMap, ownEntries_map] at e
      subst e
      obtain ⟨c', rfl, hp'⟩ := perm_map_inv hp
      exact eqMap_merged.mpr ⟨_, rfl, c', allPairs_ofMapRight h' fun a ha b h => ⟨h.1.trans (ownKey_norm _), ih a ha b.2 h.2⟩, hp'⟩

theorem own_unique :
    (∀ v : Value, UniqueKeys (.val v) → UniqueKeys (.val (ownValue v))) ∧
    ∀ m : MapValues, UniqueKeys (.map m) → UniqueKeys (.map (ownMap m)) := by
  apply Value.inductBoth
  · intro v h1 h2 h3 h
    cases v <;> simp [Value.variant] at h1 h2 h3 <;> simpa only [ownValue] using h
  · intro l ih h
    simp only [ownValue, ownList_map]
    refine uniqueKeys_list fun v hv => ?_
    obtain ⟨w, hw, rfl⟩ := List.mem_map.mp hv
    exact ih w hw (uniqueKeys_child h (.list _ w hw))
  · intro l ih h
    simp only [ownValue, ownMaps_map]
    refine uniqueKeys_object fun v hv => ?_
    obtain ⟨w, hw, rfl⟩ := List.mem_map.mp hv
    exact ih w hw (uniqueKeys_child h (.object _ w hw))
  · intro b ih h
    have hb := uniqueKeys_child h (.block b)
    cases b with
    | unmerged l =>
      simp only [ownValue]
      refine uniqueKeys_block (by simp) fun p hp => ?_
      simp only [KVP.entries, ownBodies_map] at hp
      obtain ⟨w, hw, rfl⟩ := List.mem_map.mp hp
      exact ih w hw (uniqueKeys_child hb (.body _ w hw))
    | merged l =>
      simp only [ownValue]
      refine uniqueKeys_block ?_ fun p hp => ?_
      · intro m e; injection e with e; subst e; rw [ownBodies_labels]; exact hb.2 l (.refl _)
      · simp only [KVP.entries, ownBodies_map] at hp
        obtain ⟨w, hw, rfl⟩ := List.mem_map.mp hp
        exact ih w hw (uniqueKeys_child hb (.body _ w hw))
  · intro m ih h
    cases m with
    | unmerged l =>
      simp only [ownMap]
      refine uniqueKeys_map (by simp) fun p hp => ?_
      simp only [KVP.entries, ownEntries_map] at hp
      obtain ⟨w, hw, rfl⟩ := List.mem_map.mp hp
      exact ih w hw (uniqueKeys_child h (.entry _ w hw))
    | merged l =>
      simp only [ownMap]
      refine uniqueKeys_map ?_ fun p hp => ?_
      · intro m e; injection e with e; subst e; rw [ownEntries_norms]; exact h.1 l (.refl _)
      · simp only [KVP.entries, ownEntries_map] at hp
        obtain ⟨w, hw, rfl⟩ := List.mem_map.mp hp
        exact ih w hw (uniqueKeys_child h (.entry _ w hw))
end

end Verif
