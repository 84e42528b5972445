import Verif.Proofs.MergeStages
import Verif.Proofs.ValueEqMerge
import Verif.Proofs.Unique
/-! # Merged forms of one map are equal -/
set_option autoImplicit false

namespace Verif
open Spec Props

variable {F : F64 → F64 → Prop}

theorem mergesList_pairs {l l' : List Value} (h : MergesList l l') : AllPairs Merges l l' := by
  induction l generalizing l' with
  | nil => cases h; exact .nil
  | cons v l ih => cases h with | cons _ w _ l' h1 h2 => exact .cons _ _ _ _ h1 (ih h2)
theorem mergesMaps_pairs {l l' : List MapValues} (h : MergesMaps l l') : AllPairs MergesMap l l' := by
  induction l generalizing l' with
  | nil => cases h; exact .nil
  | cons v l ih => cases h with | cons _ w _ l' h1 h2 => exact .cons _ _ _ _ h1 (ih h2)
theorem mergesEntries_pairs {l l' : List (Key × Value)} (h : MergesEntries l l') :
    AllPairs (fun a b => a.1 = b.1 ∧ Merges a.2 b.2) l l' := by
  induction l generalizing l' with
  | nil => cases h; exact .nil
  | cons v l ih => cases h with | cons k v w _ l' h1 h2 => exact .cons _ _ _ _ ⟨rfl, h1⟩ (ih h2)
theorem mergesBodies_pairs {l l' : List (List Str × MapValues)} (h : MergesBodies l l') :
    AllPairs (fun a b => a.1 = b.1 ∧ MergesMap a.2 b.2) l l' := by
  induction l generalizing l' with
  | nil => cases h; exact .nil
  | cons v l ih => cases h with | cons k v w _ l' h1 h2 => exact .cons _ _ _ _ ⟨rfl, h1⟩ (ih h2)

theorem allPairs_join {α β γ : Type} {R : α → β → Prop} {S : α → γ → Prop} {T : β → γ → Prop} {l : List α} {a : List β} {b : List γ}
    (h : AllPairs R l a) (g : AllPairs S l b) (ht : ∀ x ∈ l, ∀ y z, R x y → S x z → T y z) : AllPairs T a b := by
  induction h generalizing b with
  | nil => cases g; exact .nil
  | cons x y l a h1 _ ih => cases g with
    | cons _ z _ b g1 g2 =>
      exact .cons _ _ _ _ (ht x (by simp) y z h1 g1) (ih g2 fun x hx => ht x (by simp [hx]))

theorem merges_blockMerged {v w : Value} (h : Merges v w) : BlockMerged w := by
  intro b hb
  subst hb
  cases h with
  | scalar _ h1 h2 h3 => exact absurd rfl h3
  | block b es m h1 h2 => exact ⟨m, rfl, h2.1⟩

theorem lastWins_self {m : List (List Str × MapValues)} (hn : (m.map Prod.fst).Nodup) : LastWins m m :=
  ⟨hn, fun ls => (valuesUnder_getLast (norm := id) (by simpa using hn) ls).symm⟩

/-- The shapes of what is combined. -/
inductive CombinedView : List Value → Option Value → Prop
  | none : CombinedView [] none
  | scalar (v : Value) : v.variant ≠ .object → v.variant ≠ .block → CombinedView [v] (some v)
  | objects (l : List MapValues) (ls : List (List MapValues)) :
      CombinedView (.object l :: ls.map .object) (some (.object (l :: ls).flatten))
  | blocks (b : VBlock) (bs : List VBlock) (m : List (List Str × MapValues)) :
      LastWins ((b :: bs).flatMap KVP.entries) m → CombinedView (.block b :: bs.map .block) (some (.block (.merged m)))

theorem combined_view {vs : List Value} {o : Option Value} (h : Combined vs o) (hb : ∀ v ∈ vs, BlockMerged v) : CombinedView vs o := by
  cases h with
  | none => exact .none
  | single v =>
    by_cases h1 : v.variant = .object
    · cases v <;> simp [Value.variant] at h1
      rename_i l
      simpa using CombinedView.objects l []
    · by_cases h2 : v.variant = .block
      · cases v <;> simp [Value.variant] at h2
        rename_i b
        obtain ⟨m, rfl, hn⟩ := hb _ (by simp) b rfl
        exact .blocks (.merged m) [] m (by simpa [KVP.entries] using lastWins_self hn)
      · exact .scalar v h1 h2
  | objects ls hne =>
    cases ls with
    | nil => exact absurd rfl hne
    | cons l ls => exact .objects l ls
  | blocks bs m hne hl =>
    cases bs with
    | nil => exact absurd rfl hne
    | cons b bs => exact .blocks b bs m hl

theorem objects_flatten {a b : List (List MapValues)} (h : AllPairs (EqValue F) (a.map .object) (b.map .object)) :
    AllPairs (EqMap F) a.flatten b.flatten := by
  induction a generalizing b with
  | nil => cases b with
    | nil => exact .nil
    | cons => cases h
  | cons x a ih => cases b with
    | nil => cases h
    | cons y b =>
      cases h with
      | cons _ _ _ _ h1 h2 =>
        obtain ⟨b', e, h1⟩ := eqValue_object.mp h1
        cases e
        have := ih h2
        simp only [List.flatten_cons]
        clear h2 ih
        induction h1 with
        | nil => exact this
        | cons _ _ _ _ h _ ih => exact AllPairs.cons _ _ _ _ h (ih (.object _ _ (eqMaps_iff.mpr ‹_›)))

theorem blocks_last {a b : List VBlock} (h : AllPairs (EqValue F) (a.map .block) (b.map .block))
    (ha : ∀ x ∈ a, BlockMerged (.block x)) (hb : ∀ x ∈ b, BlockMerged (.block x)) (q : List Str) :
    OptRel (EqMap F) (valuesUnder id q (a.flatMap KVP.entries)).getLast? (valuesUnder id q (b.flatMap KVP.entries)).getLast? := by
  induction a generalizing b with
  | nil => cases b with
    | nil => trivial
    | cons => cases h
  | cons x a ih => cases b with
    | nil => cases h
    | cons y b =>
      rw [List.forall_mem_cons] at ha hb
      cases h with
      | cons _ _ _ _ h1 h2 =>
        have := ih h2 ha.2 hb.2
        obtain ⟨m, e, hm⟩ := ha.1 x rfl
        subst e
        obtain ⟨n, e, hn⟩ := hb.1 y rfl
        subst e
        obtain ⟨n', e, h1⟩ := eqValue_mergedBlock.mp h1
        cases e
        have hl := (hash_lookup (norm := id) (R := EqMap F) (by simpa using hm) (by simpa using hn)).mp h1 q
        simp only [List.flatMap_cons, valuesUnder_append, List.getLast?_append, KVP.entries]
        refine optRel_or this ?_
        rw [valuesUnder_getLast (norm := id) (by simpa using hm), valuesUnder_getLast (norm := id) (by simpa using hn)]
        exact hl

theorem combined_forms_equal {vs ws : List Value} (h : AllPairs (EqValue F) vs ws) (hv : ∀ v ∈ vs, BlockMerged v)
    (hw : ∀ v ∈ ws, BlockMerged v) {o p : Option Value} (ho : Combined vs o) (hp : Combined ws p) : OptRel (EqValue F) o p := by
  have v1 := combined_view ho hv
  have v2 := combined_view hp hw
  cases v1 with
  | none =>
    cases h
    cases v2
    trivial
  | scalar v n1 n2 =>
    cases v2 with
    | none => cases h
    | scalar => cases h with | cons _ _ _ _ h1 _ => exact h1
    | objects => cases h with | cons _ _ _ _ h1 _ => exact absurd (eqValue_variant h1).symm n1
    | blocks => cases h with | cons _ _ _ _ h1 _ => exact absurd (eqValue_variant h1).symm n2
  | objects l ls =>
    cases v2 with
    | none => cases h
    | scalar w n1 n2 => cases h with | cons _ _ _ _ h1 _ => exact absurd (eqValue_variant h1) n1
    | objects l' ls' => exact eqValue_object.mpr ⟨_, rfl, objects_flatten (a := l :: ls) (b := l' :: ls') h⟩
    | blocks => cases h with | cons _ _ _ _ h1 _ => cases h1
  | blocks b bs m hl =>
    cases v2 with
    | none => cases h
    | scalar w n1 n2 => cases h with | cons _ _ _ _ h1 _ => exact absurd (eqValue_variant h1) n2
    | objects => cases h with | cons _ _ _ _ h1 _ => cases h1
    | blocks b' bs' m' hl' =>
      refine eqValue_mergedBlock.mpr ⟨_, rfl, (hash_lookup (norm := id) (R := EqMap F) (by simpa using hl.1) (by simpa using hl'.1)).mpr fun q => ?_⟩
      rw [hl.2 q, hl'.2 q]
      exact blocks_last (a := b :: bs) (b := b' :: bs') h
        (fun x hx => hv _ (by rcases List.mem_cons.mp hx with rfl | hx <;> simp [*]))
        (fun x hx => hw _ (by rcases List.mem_cons.mp hx with rfl | hx <;> simp [*])) q

theorem merged_unique_both :
    (∀ v : Value, UniqueKeys (.val v) → (∀ x, Value.float x ∈ leaves v → F x x) → ∀ w w', Merges v w → Merges v w' → EqValue F w w') ∧
    ∀ m : MapValues, UniqueKeys (.map m) → (∀ x, Value.float x ∈ mapLeaves m → F x x) →
      ∀ n n', MergesMap m n → MergesMap m n' → EqMap F n n' := by
  apply Value.inductBoth
  · intro v h1 h2 h3 hu hF w w' g g'
    have key : ∀ w, Merges v w → w = v := by
      intro w g
      cases g with
      | scalar => rfl
      | list => exact absurd rfl h1
      | object => exact absurd rfl h2
      | block => exact absurd rfl h3
    rw [key w g, key w' g']
    exact (eqValue_refl_both.1 v hu).mpr hF
  · intro l ih hu hF w w' g g'
    cases g with
    | scalar _ h1 => exact absurd rfl h1
    | list _ a g =>
      cases g' with
      | scalar _ h1 => exact absurd rfl h1
      | list _ b g' =>
        exact eqValue_list.mpr ⟨b, rfl, allPairs_join (mergesList_pairs g) (mergesList_pairs g') fun x hx y z h1 h2 =>
          ih x hx (uniqueKeys_child hu (.list _ _ hx)) (fun f hf => hF f (mem_listLeaves.mpr ⟨x, hx, hf⟩)) y z h1 h2⟩
  · intro l ih hu hF w w' g g'
    cases g with
    | scalar _ _ h1 => exact absurd rfl h1
    | object _ a g =>
      cases g' with
      | scalar _ _ h1 => exact absurd rfl h1
      | object _ b g' =>
        exact eqValue_object.mpr ⟨b, rfl, allPairs_join (mergesMaps_pairs g) (mergesMaps_pairs g') fun x hx y z h1 h2 =>
          ih x hx (uniqueKeys_child hu (.object _ _ hx)) (fun f hf => hF f (mem_mapsLeaves.mpr ⟨x, hx, hf⟩)) y z h1 h2⟩
  · intro b ih hu hF w w' g g'
    have hub := uniqueKeys_child hu (.block b)
    cases g with
    | scalar _ _ _ h1 => exact absurd rfl h1
    | block _ es m g gl =>
      cases g' with
      | scalar _ _ _ h1 => exact absurd rfl h1
      | block _ es' m' g' gl' =>
        have hp : AllPairs (BodyRel F) es es' := allPairs_join (mergesBodies_pairs g) (mergesBodies_pairs g') fun x hx y z h1 h2 =>
          ⟨h1.1.symm.trans h2.1, ih x hx (uniqueKeys_child hub (.body _ _ hx))
            (fun f hf => hF f (mem_blockLeaves.mpr ⟨x, hx, hf⟩)) _ _ h1.2 h2.2⟩
        refine eqValue_mergedBlock.mpr ⟨_, rfl, (hash_lookup (norm := id) (R := EqMap F) (by simpa using gl.1) (by simpa using gl'.1)).mpr fun q => ?_⟩
        rw [gl.2 q, gl'.2 q]
        exact allPairs_getLast? (pairs_valuesUnder hp q)
  · intro m ih hu hF n n' g g'
    cases g with
    | already m =>
      cases g' with
      | already => exact (eqValue_refl_both.2 _ hu).mpr hF
    | unmerged es a m g gn gc =>
      cases g' with
      | unmerged _ b m' g' gn' gc' =>
        have hp : AllPairs (EntryRel F) a b := allPairs_join (mergesEntries_pairs g) (mergesEntries_pairs g') fun x hx y z h1 h2 =>
          ⟨by rw [← h1.1, ← h2.1], ih x hx (uniqueKeys_child hu (.entry _ _ hx))
            (fun f hf => hF f (mem_mapLeaves.mpr ⟨x, hx, hf⟩)) _ _ h1.2 h2.2⟩
        have good : ∀ {l es : List (Key × Value)} (k : Bool × Str), AllPairs (fun a b => a.1 = b.1 ∧ Merges a.2 b.2) l es →
            ∀ v ∈ valuesUnder Key.norm k es, BlockMerged v := by
          intro l es k h v hv
          obtain ⟨p, hp, -, rfl⟩ := mem_valuesUnder.mp hv
          obtain ⟨a, -, -, hM⟩ := allPairs_right h p hp
          exact merges_blockMerged hM
        refine eqMap_merged.mpr ⟨_, rfl, (hash_lookup (norm := Key.norm) (R := EqValue F) gn gn').mpr fun k => ?_⟩
        exact combined_forms_equal (pairs_valuesUnder hp k) (good k (mergesEntries_pairs g)) (good k (mergesEntries_pairs g'))
          (gc k) (gc' k)

end Verif
