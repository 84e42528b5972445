import Verif.Props.Merge
/-! # Merging what was merged before: the relation `MergesMap` is complete, and merging goes on from merged parts -/
set_option autoImplicit false

namespace Verif
open Spec Props

theorem noClash_iff_values (es : List (Key × Value)) :
    NoClash es ↔ ∀ k, (valuesUnder Key.norm k es).Pairwise MayShare := by
  refine ⟨fun h k => valuesUnder_pairwise h k, ?_⟩
  intro h
  induction es with
  | nil => exact List.Pairwise.nil
  | cons p es ih =>
    obtain ⟨k, v⟩ := p
    refine List.Pairwise.cons ?_ (ih fun q => ?_)
    · intro p hp he
      have := h k.norm
      simp only [valuesUnder, if_true, List.pairwise_cons] at this
      exact this.1 p.2 (mem_valuesUnder.mpr ⟨p, hp, he.symm, rfl⟩)
    · have := h q
      simp only [valuesUnder] at this
      split at this
      · exact (List.pairwise_cons.mp this).2
      · exact this

theorem noClash_variants {es es' : List (Key × Value)}
    (h : AllPairs (fun a b => a.1 = b.1 ∧ b.2.variant = a.2.variant) es es') : NoClash es ↔ NoClash es' := by
  unfold NoClash
  induction h with
  | nil => simp
  | cons a b as bs h1 h2 ih =>
    simp only [List.pairwise_cons, ih]
    refine and_congr ?_ Iff.rfl
    obtain ⟨k, v⟩ := a
    obtain ⟨k', w⟩ := b
    obtain ⟨rfl, hv⟩ := h1
    simp only at hv ⊢
    clear ih
    induction h2 with
    | nil => simp
    | cons c d cs ds h3 h4 ih =>
      simp only [List.forall_mem_cons, ih]
      refine and_congr ?_ Iff.rfl
      rw [h3.1, mayShare_congr hv.symm h3.2.symm]

/-- What is combined has one variant, and may share the key. -/
theorem combined_facts {vs : List Value} {v : Value} (h : Combined vs (some v)) :
    vs ≠ [] ∧ (∀ u ∈ vs, u.variant = v.variant) ∧ vs.Pairwise MayShare := by
  cases h with
  | single => simp
  | objects ls hne =>
    refine ⟨by simpa using hne, ?_, ?_⟩
    · intro u hu
      obtain ⟨l, -, rfl⟩ := List.mem_map.mp hu
      rfl
    · rw [List.pairwise_map]
      exact List.Pairwise.imp (fun _ => .objects _ _) (List.pairwise_of_forall (R := fun _ _ => True) fun _ _ => trivial)
  | blocks bs m hne hl =>
    refine ⟨by simpa using hne, ?_, ?_⟩
    · intro u hu
      obtain ⟨l, -, rfl⟩ := List.mem_map.mp hu
      rfl
    · rw [List.pairwise_map]
      exact List.Pairwise.imp (fun _ => .blocks _ _) (List.pairwise_of_forall (R := fun _ _ => True) fun _ _ => trivial)

theorem combined_empty {vs : List Value} (h : Combined vs none) : vs = [] := by cases h; rfl

theorem combined_pairwise {vs : List Value} {o : Option Value} (h : Combined vs o) : vs.Pairwise MayShare := by
  cases o with
  | none => rw [combined_empty h]; exact .nil
  | some v => exact (combined_facts h).2.2

/-- Every body in a block set that `LastWins` describes is one of the bodies listed. -/
theorem lastWins_mem {es m : List (List Str × MapValues)} (h : LastWins es m) :
    ∀ p ∈ m, ∃ q ∈ es, q.2 = p.2 := by
  intro p hp
  have h1 : p.2 ∈ valuesUnder id p.1 m := mem_valuesUnder.mpr ⟨p, hp, rfl, rfl⟩
  have h2 := valuesUnder_length_le_one (id : List Str → List Str) p.1 m (by simpa using h.1)
  have h3 := h.2 p.1
  rw [hashMap_get_values] at h3
  match hv : valuesUnder id p.1 m, h1, h2 with
  | [v], h1, _ =>
    rw [hv] at h3
    simp only [List.mem_singleton] at h1
    subst h1
    obtain ⟨q, hq, -, he⟩ := mem_valuesUnder.mp (List.mem_of_getLast? h3.symm)
    exact ⟨q, hq, he⟩
  | _ :: _ :: _, _, h2 => simp at h2

theorem block_bodies_fixed {b : VBlock} (h : (Value.block b).merge = .ok (.block b)) :
    ∀ p ∈ b.entries, Value.mergeMap p.2 = .ok p.2 := by
  obtain ⟨m, rfl, -⟩ := merge_blockMerged h b rfl
  intro p hp
  simp only [Value.merge, Value.mergeBlock] at h
  obtain ⟨es, he, he'⟩ := except_map_eq h
  have hm' : m = HashMap.collect id es := by simpa using he'
  simp only [KVP.entries] at hp
  rw [hm'] at hp
  rcases mem_extend id [] es p hp with ⟨e, hee, hpe⟩ | ⟨e, hee, -⟩
  · obtain ⟨c, -, -, hc⟩ := allPairs_right (mergeBodies_ok.mp he) e hee
    rw [← hpe]
    obtain ⟨x, hx⟩ := mergeMap_merged hc
    rw [hx]
    rfl
  · cases hee

/-- Combining merged values gives a merged value. -/
theorem combined_is_fixed {vs : List Value} {v : Value} (hv : ∀ u ∈ vs, u.merge = .ok u) (h : Combined vs (some v)) :
    v.merge = .ok v := by
  cases h with
  | single => exact hv v (by simp)
  | objects ls hne =>
    rw [merge_object_fixed]
    intro m hm
    obtain ⟨l, hl, hml⟩ := List.mem_flatten.mp hm
    exact merge_object_fixed.mp (hv _ (List.mem_map.mpr ⟨l, hl, rfl⟩)) m hml
  | blocks bs m hne hl =>
    refine merge_block_fixed hl.1 ?_
    intro p hp
    obtain ⟨q, hq, he⟩ := lastWins_mem hl p hp
    obtain ⟨b, hb, hqb⟩ := List.mem_flatMap.mp hq
    have := block_bodies_fixed (hv _ (List.mem_map.mpr ⟨b, hb, rfl⟩)) q hqb
    rw [he] at this
    exact this

theorem allPairs_imp {α β : Type} {R S : α → β → Prop} (hi : ∀ a b, R a b → S a b) {as : List α} {bs : List β}
    (h : AllPairs R as bs) : AllPairs S as bs := by
  induction h with
  | nil => exact .nil
  | cons a b as bs h1 h2 ih => exact .cons _ _ _ _ (hi _ _ h1) ih

/-- The values of a merged map are merged. -/
theorem map_values_fixed {es' m : List (Key × Value)} (hes : ∀ p ∈ es', p.2.merge = .ok p.2)
    (hn : (m.map fun p => p.1.norm).Nodup)
    (hc : ∀ k, Combined (valuesUnder Key.norm k es') (HashMap.get Key.norm k m)) : ∀ p ∈ m, p.2.merge = .ok p.2 := by
  intro p hp
  have h1 : p.2 ∈ valuesUnder Key.norm p.1.norm m := mem_valuesUnder.mpr ⟨p, hp, rfl, rfl⟩
  have h2 := valuesUnder_length_le_one Key.norm p.1.norm m hn
  have h3 := hc p.1.norm
  rw [hashMap_get_values Key.norm p.1.norm m] at h3
  match hv : valuesUnder Key.norm p.1.norm m, h1, h2 with
  | [v], h1, _ =>
    rw [hv] at h3
    simp only [List.mem_singleton] at h1
    subst h1
    refine combined_is_fixed ?_ h3
    intro u hu
    obtain ⟨q, hq, -, rfl⟩ := mem_valuesUnder.mp hu
    exact hes q hq
  | _ :: _ :: _, _, h2 => simp at h2

/-- What the relation gives for entries. -/
def EntryDone (a b : Key × Value) : Prop :=
  a.1 = b.1 ∧ (∃ w, a.2.merge = .ok w) ∧ b.2.merge = .ok b.2 ∧ b.2.variant = a.2.variant

theorem merges_complete_all :
    (∀ v w, Merges v w → (∃ w', v.merge = .ok w') ∧ w.merge = .ok w ∧ w.variant = v.variant) ∧
    (∀ m n, MergesMap m n → (∃ n', Value.mergeMap m = .ok n') ∧ Value.mergeMap n = .ok n) ∧
    ∀ es es', MergesEntries es es' → AllPairs EntryDone es es' := by
  have key : ∀ (es es' m : List (Key × Value)), AllPairs EntryDone es es' → (m.map fun p => p.1.norm).Nodup →
      (∀ k, Combined (valuesUnder Key.norm k es') (HashMap.get Key.norm k m)) →
      (∃ n', Value.mergeMap (.unmerged es) = .ok n') ∧ Value.mergeMap (.merged m) = .ok (.merged m) := by
    intro es es' m h hn hc
    refine ⟨?_, rfl⟩
    simp only [Value.mergeMap]
    rw [except_map_ok, mergeEntries_exists]
    constructor
    · intro p hp
      have := allPairs_exists.mp ⟨es', h⟩ p hp
      obtain ⟨b, hb⟩ := this
      exact hb.2.1
    · rw [noClash_variants (allPairs_imp (fun a b hab => ⟨hab.1, hab.2.2.2⟩) h), noClash_iff_values]
      intro k
      exact combined_pairwise (hc k)
  have mot := fun (v w : Value) (h : Merges v w) =>
    Merges.rec (motive_1 := fun v w _ => (∃ w', v.merge = .ok w') ∧ w.merge = .ok w ∧ w.variant = v.variant)
      (motive_2 := fun l l' _ => (∀ v ∈ l, ∃ w, v.merge = .ok w) ∧ ∀ w ∈ l', w.merge = .ok w)
      (motive_3 := fun l l' _ => (∀ v ∈ l, ∃ w, Value.mergeMap v = .ok w) ∧ ∀ w ∈ l', Value.mergeMap w = .ok w)
      (motive_4 := fun m n _ => (∃ n', Value.mergeMap m = .ok n') ∧ Value.mergeMap n = .ok n)
      (motive_5 := fun es es' _ => AllPairs EntryDone es es')
      (motive_6 := fun es es' _ => (∀ p ∈ es, ∃ w, Value.mergeMap p.2 = .ok w) ∧ ∀ p ∈ es', Value.mergeMap p.2 = .ok p.2)
      (fun v h1 h2 h3 => by
        have : v.merge = .ok v := by cases v <;> simp [Value.variant] at h1 h2 h3 <;> rfl
        exact ⟨⟨v, this⟩, this, rfl⟩)
      (fun l l' _ ih => by
        refine ⟨?_, ?_, rfl⟩
        · simp only [Value.merge]
          rw [except_map_ok]
          simp only [mergeList_ok]
          exact allPairs_exists.mpr ih.1
        · simp only [Value.merge]
          rw [mergeList_ok.mpr (allPairs_self.mpr ih.2)]
          rfl)
      (fun l l' _ ih => by
        refine ⟨?_, merge_object_fixed.mpr ih.2, rfl⟩
        simp only [Value.merge]
        rw [except_map_ok]
        simp only [mergeMaps_ok]
        exact allPairs_exists.mpr ih.1)
      (fun b es m _ hl ih => by
        refine ⟨?_, ?_, rfl⟩
        · simp only [Value.merge]
          rw [except_map_ok]
          simp only [mergeBlock_eq, mergeBodies_ok]
          rw [allPairs_exists]
          intro p hp
          obtain ⟨w, hw⟩ := ih.1 p hp
          exact ⟨(p.1, w), rfl, hw⟩
        · refine merge_block_fixed hl.1 fun p hp => ?_
          obtain ⟨q, hq, he⟩ := lastWins_mem hl p hp
          exact he ▸ ih.2 q hq)
      (by simp) (fun v w l l' _ _ i1 i2 => ⟨List.forall_mem_cons.mpr ⟨i1.1, i2.1⟩, List.forall_mem_cons.mpr ⟨i1.2.1, i2.2⟩⟩)
      (by simp) (fun v w l l' _ _ i1 i2 => ⟨List.forall_mem_cons.mpr ⟨i1.1, i2.1⟩, List.forall_mem_cons.mpr ⟨i1.2, i2.2⟩⟩)
      (fun m => ⟨⟨_, rfl⟩, rfl⟩)
      (fun es es' m _ hn hc ih => key es es' m ih hn hc)
      .nil (fun k v w l l' _ _ i1 i2 => .cons _ _ _ _ ⟨rfl, i1.1, i1.2.1, i1.2.2⟩ i2)
      (by simp) (fun k v w l l' _ _ i1 i2 => ⟨List.forall_mem_cons.mpr ⟨i1.1, i2.1⟩, List.forall_mem_cons.mpr ⟨i1.2, i2.2⟩⟩)
      h
  have ment : ∀ es es', MergesEntries es es' → AllPairs EntryDone es es' := by
    intro es
    induction es with
    | nil => intro es' h; cases h; exact .nil
    | cons p es ih =>
      intro es' h
      cases h with
      | cons k v w l l' h1 h2 =>
        have := mot v w h1
        exact .cons _ _ _ _ ⟨rfl, this.1, this.2.1, this.2.2⟩ (ih _ h2)
  refine ⟨mot, ?_, ment⟩
  intro m n h
  cases h with
  | already m => exact ⟨⟨_, rfl⟩, rfl⟩
  | unmerged es es' m h1 hn hc => exact key es es' m (ment _ _ h1) hn hc

/-! ## going on from merged parts -/

theorem valuesUnder_toList {m : List (Key × Value)} (hn : (m.map fun p => p.1.norm).Nodup) (k : Bool × Str) :
    valuesUnder Key.norm k m = (HashMap.get Key.norm k m).toList := by
  rw [hashMap_get_values]
  have h2 := valuesUnder_length_le_one Key.norm k m hn
  match hv : valuesUnder Key.norm k m, h2 with
  | [], _ => rfl
  | [v], _ => rfl
  | _ :: _ :: _, h2 => simp at h2

theorem map_inj {α β : Type} {f : α → β} (hf : ∀ a b, f a = f b → a = b) {l l' : List α} (h : l.map f = l'.map f) : l = l' := by
  induction l generalizing l' with
  | nil => cases l' with
    | nil => rfl
    | cons => cases h
  | cons a l ih => cases l' with
    | nil => cases h
    | cons b l' =>
      simp only [List.map_cons, List.cons.injEq] at h
      rw [hf _ _ h.1, ih h.2]

theorem lastWins_replace {a c es m n : List (List Str × MapValues)} (h : LastWins es m) (hn : LastWins (a ++ m ++ c) n) :
    LastWins (a ++ es ++ c) n := by
  refine ⟨hn.1, fun ls => ?_⟩
  rw [hn.2 ls]
  have h1 := h.2 ls
  rw [hashMap_get_values] at h1
  have h2 := valuesUnder_length_le_one (id : List Str → List Str) ls m (by simpa using h.1)
  simp only [valuesUnder_append, List.getLast?_append]
  rw [← h1]
  match valuesUnder id ls m, h2 with
  | [], _ => rfl
  | [v], _ => rfl
  | _ :: _ :: _, h2 => simp at h2

theorem combined_replace {pre vs rest : List Value} {o x : Option Value} (h : Combined vs o)
    (hx : Combined (pre ++ o.toList ++ rest) x) : Combined (pre ++ vs ++ rest) x := by
  cases h with
  | none => simpa using hx
  | single v => simpa using hx
  | objects ls hne =>
    simp only [Option.toList_some] at hx
    generalize hl : pre ++ [Value.object ls.flatten] ++ rest = l at hx
    cases hx with
    | none => simp at hl
    | single v =>
      obtain ⟨rfl, rfl, rfl⟩ : pre = [] ∧ rest = [] ∧ v = .object ls.flatten := by
        cases pre with
        | nil => simp at hl; exact ⟨rfl, hl.2, hl.1.symm⟩
        | cons p pre => simp at hl
      simpa using Combined.objects ls hne
    | objects ls' hne' =>
      obtain ⟨a, c, rfl, hac, hc⟩ := List.map_eq_append_iff.mp hl.symm
      obtain ⟨a1, b1, rfl, ha1, hb1⟩ := List.map_eq_append_iff.mp hac
      have : b1 = [ls.flatten] := map_inj (f := Value.object) (fun _ _ e => by simpa using e) hb1
      subst this
      subst ha1 hc
      have := Combined.objects (a1 ++ ls ++ c) (by simp [hne])
      simpa using this
    | blocks bs m _ _ =>
      exfalso
      have : Value.object ls.flatten ∈ bs.map Value.block := hl ▸ (by simp)
      simp at this
  | blocks bs m hne hlw =>
    simp only [Option.toList_some] at hx
    generalize hl : pre ++ [Value.block (.merged m)] ++ rest = l at hx
    cases hx with
    | none => simp at hl
    | single v =>
      obtain ⟨rfl, rfl, rfl⟩ : pre = [] ∧ rest = [] ∧ v = .block (.merged m) := by
        cases pre with
        | nil => simp at hl; exact ⟨rfl, hl.2, hl.1.symm⟩
        | cons p pre => simp at hl
      simpa using Combined.blocks bs m hne hlw
    | objects ls' hne' =>
      exfalso
      have : Value.block (.merged m) ∈ ls'.map Value.object := hl ▸ (by simp)
      simp at this
    | blocks bs' m' hne' hlw' =>
      obtain ⟨a, c, rfl, hac, hc⟩ := List.map_eq_append_iff.mp hl.symm
      obtain ⟨a1, b1, rfl, ha1, hb1⟩ := List.map_eq_append_iff.mp hac
      have : b1 = [KVP.merged m] := map_inj (f := Value.block) (fun _ _ e => by simpa using e) hb1
      subst this
      subst ha1 hc
      have := Combined.blocks (a1 ++ bs ++ c) m' (by simp [hne]) (by
        have h2 : LastWins (a1.flatMap KVP.entries ++ m ++ c.flatMap KVP.entries) m' := by simpa [KVP.entries] using hlw'
        have := lastWins_replace hlw h2
        simpa using this)
      simpa using this

theorem combined_replace_all {ps : List (List Value × Option Value)} (h : ∀ p ∈ ps, Combined p.1 p.2) {pre : List Value}
    {x : Option Value} (hx : Combined (pre ++ ps.flatMap fun p => p.2.toList) x) : Combined (pre ++ ps.flatMap (·.1)) x := by
  induction ps generalizing pre with
  | nil => exact hx
  | cons p ps ih =>
    rw [List.forall_mem_cons] at h
    simp only [List.flatMap_cons, ← List.append_assoc] at hx ⊢
    exact ih h.2 (combined_replace h.1 hx)

theorem pairwise_replace {pre vs rest : List Value} {o : Option Value} (h : Combined vs o) :
    (pre ++ o.toList ++ rest).Pairwise MayShare ↔ (pre ++ vs ++ rest).Pairwise MayShare := by
  cases o with
  | none => rw [combined_empty h]; rfl
  | some v =>
    obtain ⟨hne, hv, hp⟩ := combined_facts h
    have hl : ∀ a, (∀ b ∈ vs, MayShare a b) ↔ MayShare a v := by
      intro a
      constructor
      · intro g
        obtain ⟨u, us, rfl⟩ := List.exists_cons_of_ne_nil hne
        exact (mayShare_congr rfl (hv u (by simp))).mp (g u (by simp))
      · intro g b hb
        exact (mayShare_congr rfl (hv b hb)).mpr g
    have hr : ∀ a, (∀ b ∈ vs, MayShare b a) ↔ MayShare v a := by
      intro a
      constructor
      · intro g
        obtain ⟨u, us, rfl⟩ := List.exists_cons_of_ne_nil hne
        exact (mayShare_congr (hv u (by simp)) rfl).mp (g u (by simp))
      · intro g b hb
        exact (mayShare_congr (hv b hb) rfl).mpr g
    simp only [List.append_assoc, List.pairwise_append, Option.toList_some, List.mem_append, List.mem_singleton, hp,
      List.pairwise_singleton, true_and]
    constructor
    · rintro ⟨h1, ⟨h2, h3⟩, h4⟩
      refine ⟨h1, ⟨h2, fun a ha b hb => ?_⟩, ?_⟩
      · exact (hr b).mpr (h3 v rfl b hb) a ha
      · rintro a ha b (hb | hb)
        · exact (hl a).mpr (h4 a ha v (.inl rfl)) b hb
        · exact h4 a ha b (.inr hb)
    · rintro ⟨h1, ⟨h2, h3⟩, h4⟩
      refine ⟨h1, ⟨h2, ?_⟩, ?_⟩
      · rintro a rfl b hb
        exact (hr b).mp fun c hc => h3 c hc b hb
      · rintro a ha b (rfl | hb)
        · exact (hl a).mp fun c hc => h4 a ha c (.inl hc)
        · exact h4 a ha b (.inr hb)

theorem pairwise_replace_all {ps : List (List Value × Option Value)} (h : ∀ p ∈ ps, Combined p.1 p.2) {pre : List Value} :
    (pre ++ ps.flatMap fun p => p.2.toList).Pairwise MayShare ↔ (pre ++ ps.flatMap (·.1)).Pairwise MayShare := by
  induction ps generalizing pre with
  | nil => exact Iff.rfl
  | cons p ps ih =>
    rw [List.forall_mem_cons] at h
    simp only [List.flatMap_cons, ← List.append_assoc]
    rw [pairwise_replace h.1]
    exact ih h.2

/-- The values under one key clash with error `e`: the first one with a later one. -/
def ValuesClash (key : Str) (vs : List Value) (e : ValueErr) : Prop :=
  ∃ v rest w, vs = v :: rest ∧ w ∈ rest ∧ ClashError key v w e

theorem clash_replace {key : Str} {pre vs rest : List Value} {o : Option Value} {e : ValueErr} (h : Combined vs o)
    (hc : ValuesClash key (pre ++ o.toList ++ rest) e) : ValuesClash key (pre ++ vs ++ rest) e := by
  cases o with
  | none => rw [combined_empty h]; exact hc
  | some x =>
    obtain ⟨hne, hv, -⟩ := combined_facts h
    obtain ⟨u, us, rfl⟩ := List.exists_cons_of_ne_nil hne
    have hu := hv u (by simp)
    obtain ⟨v, r, w, he, hw, hce⟩ := hc
    cases pre with
    | nil =>
      simp only [Option.toList_some, List.nil_append, List.cons_append, List.cons.injEq] at he
      obtain ⟨rfl, rfl⟩ := he
      exact ⟨u, us ++ rest, w, rfl, by simp [hw], clashError_congr hu.symm rfl hce⟩
    | cons p pre =>
      simp only [Option.toList_some, List.cons_append, List.cons.injEq] at he
      obtain ⟨rfl, rfl⟩ := he
      simp only [List.mem_append, List.mem_singleton] at hw
      rcases hw with (hw | rfl) | hw
      · exact ⟨p, _, w, rfl, by simp [hw], hce⟩
      · exact ⟨p, _, u, rfl, by simp, clashError_congr rfl hu.symm hce⟩
      · exact ⟨p, _, w, rfl, by simp [hw], hce⟩

theorem clash_replace_all {key : Str} {e : ValueErr} {ps : List (List Value × Option Value)} (h : ∀ p ∈ ps, Combined p.1 p.2)
    {pre : List Value} (hc : ValuesClash key (pre ++ ps.flatMap fun p => p.2.toList) e) :
    ValuesClash key (pre ++ ps.flatMap (·.1)) e := by
  induction ps generalizing pre with
  | nil => exact hc
  | cons p ps ih =>
    rw [List.forall_mem_cons] at h
    simp only [List.flatMap_cons, ← List.append_assoc] at hc ⊢
    exact ih h.2 (clash_replace h.1 hc)

theorem key_text (k : Key) : k.text = k.norm.2 := by cases k <;> rfl

theorem valuesUnder_none {q : Bool × Str} {pre : List (Key × Value)} (h : ∀ p ∈ pre, p.1.norm ≠ q) :
    valuesUnder Key.norm q pre = [] := by
  induction pre with
  | nil => rfl
  | cons p pre ih =>
    rw [List.forall_mem_cons] at h
    obtain ⟨k, v⟩ := p
    rw [valuesUnder, if_neg h.1]
    exact ih h.2

theorem clash_of_values {es : List (Key × Value)} {e : ValueErr} {k : Bool × Str} {v w : Value} {rest : List Value}
    (he : valuesUnder Key.norm k es = v :: rest) (hw : w ∈ rest) (hce : ClashError k.2 v w e) :
    ∃ pre a mid b post, es = pre ++ a :: mid ++ b :: post ∧ a.1.norm = k ∧ a.1.norm = b.1.norm ∧
      (∀ p ∈ pre, p.1.norm ≠ a.1.norm) ∧ ClashError a.1.text a.2 b.2 e := by
  induction es with
  | nil => cases he
  | cons p es ih =>
    obtain ⟨k', v'⟩ := p
    rw [valuesUnder] at he
    split at he
    · rename_i hk
      obtain ⟨rfl, rfl⟩ := List.cons.inj he
      obtain ⟨q, hq, hqk, rfl⟩ := mem_valuesUnder.mp hw
      obtain ⟨mid, post, rfl⟩ := List.append_of_mem hq
      refine ⟨[], (k', v'), mid, q, post, rfl, hk, hk.trans hqk.symm, by simp, ?_⟩
      rw [key_text, hk]
      exact hce
    · rename_i hk
      obtain ⟨pre, a, mid, b, post, rfl, ha, hab, hpre, hce'⟩ := ih he
      exact ⟨(k', v') :: pre, a, mid, b, post, rfl, ha, hab, List.forall_mem_cons.mpr ⟨fun h => hk (h.trans ha), hpre⟩, hce'⟩

theorem clash_iff {es : List (Key × Value)} {e : ValueErr} :
    Clash es e ↔ ∃ k, ValuesClash k.2 (valuesUnder Key.norm k es) e := by
  constructor
  · rintro ⟨pre, a, mid, b, post, rfl, hab, hpre, hce⟩
    obtain ⟨ka, va⟩ := a
    obtain ⟨kb, vb⟩ := b
    simp only at hab hpre
    refine ⟨ka.norm, va, valuesUnder Key.norm ka.norm (mid ++ (kb, vb) :: post), vb, ?_, ?_, key_text ka ▸ hce⟩
    · rw [List.append_assoc, valuesUnder_append, valuesUnder_none hpre]
      simp [valuesUnder]
    · exact mem_valuesUnder.mpr ⟨(kb, vb), by simp, hab.symm, rfl⟩
  · rintro ⟨k, v, rest, w, he, hw, hce⟩
    obtain ⟨pre, a, mid, b, post, h1, -, h2, h3, h4⟩ := clash_of_values he hw hce
    exact ⟨pre, a, mid, b, post, h1, h2, h3, h4⟩

/-! ## the two ways agree -/

theorem mergesEntries_append {a a' b b' : List (Key × Value)} (h : MergesEntries a a') (g : MergesEntries b b') :
    MergesEntries (a ++ b) (a' ++ b') := by
  induction a generalizing a' with
  | nil => cases h; exact g
  | cons p a ih => cases h with
    | cons k v w l l' h1 h2 => exact .cons _ _ _ _ _ h1 (ih h2)

/-- The parts merged: the entries of all parts with their values merged, and what is combined under each key. -/
theorem stages_parts {fs : List (List (Key × Value) × List (Key × Value))}
    (h : ∀ f ∈ fs, MergesMap (.unmerged f.1) (.merged f.2)) :
    ∃ es', MergesEntries (fs.flatMap (·.1)) es' ∧ (∀ p ∈ fs.flatMap (·.2), p.2.merge = .ok p.2) ∧
      ∀ k, ∃ ps : List (List Value × Option Value), (∀ p ∈ ps, Combined p.1 p.2) ∧
        valuesUnder Key.norm k es' = ps.flatMap (·.1) ∧ valuesUnder Key.norm k (fs.flatMap (·.2)) = ps.flatMap fun p => p.2.toList := by
  induction fs with
  | nil => exact ⟨[], .nil, by simp, fun k => ⟨[], by simp, rfl, rfl⟩⟩
  | cons f fs ih =>
    rw [List.forall_mem_cons] at h
    obtain ⟨es', h1, h2, h3⟩ := ih h.2
    obtain ⟨a, m⟩ := f
    have hf := h.1
    cases hf with
    | unmerged _ a' _ g1 g2 g3 =>
      have gfix : ∀ p ∈ a', p.2.merge = .ok p.2 := by
        intro p hp
        obtain ⟨q, -, hq⟩ := allPairs_right (merges_complete_all.2.2 _ _ g1) p hp
        exact hq.2.2.1
      refine ⟨a' ++ es', mergesEntries_append g1 h1, ?_, fun k => ?_⟩
      · intro p hp
        rw [List.flatMap_cons, List.mem_append] at hp
        rcases hp with hp | hp
        · exact map_values_fixed gfix g2 g3 p hp
        · exact h2 p hp
      · obtain ⟨ps, q1, q2, q3⟩ := h3 k
        refine ⟨(valuesUnder Key.norm k a', HashMap.get Key.norm k m) :: ps, List.forall_mem_cons.mpr ⟨g3 k, q1⟩, ?_, ?_⟩
        · rw [valuesUnder_append, q2]; rfl
        · rw [List.flatMap_cons, valuesUnder_append, q3, valuesUnder_toList g2]; rfl

theorem stages {fs : List (List (Key × Value) × List (Key × Value))}
    (h : ∀ f ∈ fs, MergesMap (.unmerged f.1) (.merged f.2)) :
    ((∃ n, MapValues.merge (.unmerged (fs.flatMap (·.2))) = .ok n) ↔ ∃ n, MapValues.merge (.unmerged (fs.flatMap (·.1))) = .ok n) ∧
    (∀ n, MapValues.merge (.unmerged (fs.flatMap (·.2))) = .ok n → MergesMap (.unmerged (fs.flatMap (·.1))) n) ∧
    ∀ e, MapValues.merge (.unmerged (fs.flatMap (·.2))) = .error e → Clash (fs.flatMap (·.1)) e := by
  obtain ⟨es', h1, h2, h3⟩ := stages_parts h
  have hd := merges_complete_all.2.2 _ _ h1
  have hvar : AllPairs (fun a b : Key × Value => a.1 = b.1 ∧ b.2.variant = a.2.variant) (fs.flatMap (·.1)) es' :=
    allPairs_imp (fun a b hab => ⟨hab.1, hab.2.2.2⟩) hd
  simp only [MapValues.merge, Value.mergeMap]
  refine ⟨?_, ?_, ?_⟩
  · rw [except_map_ok, except_map_ok, mergeEntries_exists, mergeEntries_exists, noClash_variants hvar,
      noClash_iff_values, noClash_iff_values]
    refine and_congr ?_ (forall_congr' fun k => ?_)
    · refine iff_of_true (fun p hp => ⟨_, h2 p hp⟩) fun p hp => ?_
      obtain ⟨b, hb⟩ := allPairs_exists.mp ⟨es', hd⟩ p hp
      exact hb.2.1
    · obtain ⟨ps, q1, q2, q3⟩ := h3 k
      rw [q2, q3]
      have := pairwise_replace_all q1 (pre := [])
      simpa using this
  · intro n hn
    obtain ⟨m, hm, rfl⟩ := except_map_eq hn
    obtain ⟨M', g1, g2⟩ := mergeEntries_ok.mp hm
    have hM : M' = fs.flatMap (·.2) := by
      have := allPairs_map_eq (f := id) (g := id) g1 (fun a ha b hab => by
        have := h2 a ha
        rw [hab.2] at this
        obtain ⟨k, v⟩ := a
        obtain ⟨k', v'⟩ := b
        obtain ⟨rfl, -⟩ := hab
        simpa using this)
      simpa using this
    subst hM
    obtain ⟨s1, s2⟩ := addAll_spec (fun p hp => merge_blockMerged (h2 p hp)) g2
    refine .unmerged _ es' _ h1 s1 fun k => ?_
    obtain ⟨ps, q1, q2, q3⟩ := h3 k
    have := s2 k
    rw [q3] at this
    rw [q2]
    have := combined_replace_all q1 (pre := []) (by simpa using this)
    simpa using this
  · intro e he
    rcases mergeEntries_error (except_map_error he) with ⟨p, hp, hpe⟩ | hc
    · rw [h2 p hp] at hpe
      cases hpe
    · obtain ⟨k, hk⟩ := clash_iff.mp hc
      obtain ⟨ps, q1, q2, q3⟩ := h3 k
      rw [q3] at hk
      have := clash_replace_all q1 (pre := []) (by simpa using hk)
      simp only [List.nil_append] at this
      rw [← q2] at this
      refine clash_iff.mpr ⟨k, ?_⟩
      have hp := valuesUnder_pairs (R := fun a b => b.variant = a.variant) hvar k
      obtain ⟨v, rest, w, e1, hw, hce⟩ := this
      rw [e1] at hp
      generalize valuesUnder Key.norm k (fs.flatMap (·.1)) = vs at hp
      cases hp with
      | cons a _ as _ p1 p2 =>
        obtain ⟨b, hb, hbw⟩ := allPairs_right p2 w hw
        exact ⟨a, as, b, rfl, hb, clashError_congr p1 hbw hce⟩

/-- The order in which a merged map is listed does not matter. -/
theorem mergesMap_perm {m : MapValues} {n n' : List (Key × Value)} (h : MergesMap m (.merged n)) (hp : n'.Perm n)
    (hm : ∃ es, m = .unmerged es) : MergesMap m (.merged n') := by
  obtain ⟨es, rfl⟩ := hm
  cases h with
  | unmerged _ es' _ h1 h2 h3 =>
    have hn' : (n'.map fun p => p.1.norm).Nodup := (hp.map fun p => p.1.norm).nodup_iff.mpr h2
    refine .unmerged _ es' _ h1 hn' fun k => ?_
    have : HashMap.get Key.norm k n' = HashMap.get Key.norm k n := by
      have e1 := valuesUnder_toList hn' k
      have e2 := valuesUnder_toList h2 k
      have hmem : ∀ v, v ∈ (HashMap.get Key.norm k n').toList ↔ v ∈ (HashMap.get Key.norm k n).toList := by
        intro v
        rw [← e1, ← e2, mem_valuesUnder, mem_valuesUnder]
        simp only [hp.mem_iff]
      cases ha : HashMap.get Key.norm k n' with
      | none =>
        cases hb : HashMap.get Key.norm k n with
        | none => rfl
        | some v => rw [ha, hb] at hmem; simpa using hmem v
      | some u =>
        rw [ha] at hmem
        have := (hmem u).mp (by simp)
        simpa [eq_comm] using this
    rw [this]
    exact h3 k

end Verif
