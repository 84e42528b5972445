import Verif.Proofs.ValueEqMerge
import Verif.Props.Agree
/-!
# C70: equality of legacy values

`==` on values and maps is derived in Rust. `feq` is Rust's `==` on `f64`.
-/
set_option autoImplicit false
set_option linter.unusedSectionVars false

namespace Verif.Props
open Verif Spec

variable (U : CharClass) (P : F64Parse) (feq : F64 → F64 → Bool)

/-- Rust's `==` on floats -/
abbrev FloatEq : F64 → F64 → Prop := fun x y => feq x y = true

/-- C70: `==` on values says that they have the same contents, merged hash maps in any order. -/
theorem c70_values (v w : Value) (hv : UniqueKeys (.val v)) (hw : UniqueKeys (.val w)) :
    v.eq feq w = true ↔ EqValue (FloatEq feq) v w := (value_eq_iff_both feq).1 v w hv hw

/-- C70: `==` on maps. -/
theorem c70_maps (m n : MapValues) (hm : UniqueKeys (.map m)) (hn : UniqueKeys (.map n)) :
    Value.eqMap feq m n = true ↔ EqMap (FloatEq feq) m n := (value_eq_iff_both feq).2 m n hm hn

/-- C70: the hypothesis holds of everything read from a text. -/
theorem c70_documents (s t : Str) (a b : Option MergeBehaviour) (m n : MapValues) (hm : fromStr U P s a = .ok m)
    (hn : fromStr U P t b = .ok n) : Value.eqMap feq m n = true ↔ EqMap (FloatEq feq) m n :=
  c70_maps feq m n (c19_from_str_valid U P s a m hm) (c19_from_str_valid U P t b n hn)

/-- C70: a value equals itself exactly when every float in it does (so when there is no NaN). -/
theorem c70_refl_iff (v : Value) (h : UniqueKeys (.val v)) :
    v.eq feq v = true ↔ ∀ x, Value.float x ∈ leaves v → feq x x = true := by
  rw [c70_values feq v v h h]
  exact eqValue_refl_both.1 v h

/-- C70: the same for maps. -/
theorem c70_map_refl_iff (m : MapValues) (h : UniqueKeys (.map m)) :
    Value.eqMap feq m m = true ↔ ∀ x, Value.float x ∈ mapLeaves m → feq x x = true := by
  rw [c70_maps feq m m h h]
  exact eqValue_refl_both.2 m h

/-- C70: equality is symmetric if it is on floats. -/
theorem c70_symm (hF : ∀ x y, feq x y = true → feq y x = true) (v w : Value) (hv : UniqueKeys (.val v)) (hw : UniqueKeys (.val w)) :
    v.eq feq w = w.eq feq v := by
  have key : ∀ v w : Value, UniqueKeys (.val v) → UniqueKeys (.val w) → v.eq feq w = true → w.eq feq v = true := by
    intro v w hv hw h
    rw [c70_values feq v w hv hw] at h
    rw [c70_values feq w v hw hv]
    have h' := eqValue_flip_both.1 v w h
    have e : (fun x y : F64 => feq y x = true) = FloatEq feq := by
      funext x y; exact propext ⟨hF _ _, hF _ _⟩
    rwa [e] at h'
  cases h : v.eq feq w with
  | true => exact (key v w hv hw h).symm
  | false => cases h' : w.eq feq v with
    | false => rfl
    | true => rw [key w v hw hv h'] at h; cases h

/-- C70: equality is transitive if it is on floats. -/
theorem c70_trans (hF : ∀ x y z, feq x y = true → feq y z = true → feq x z = true) (u v w : Value) (hu : UniqueKeys (.val u))
    (hv : UniqueKeys (.val v)) (hw : UniqueKeys (.val w)) (h1 : u.eq feq v = true) (h2 : v.eq feq w = true) :
    u.eq feq w = true := by
  rw [c70_values feq _ _ ‹_› ‹_›] at h1 h2 ⊢
  exact (eqValue_trans_both hF).1 u v w h1 h2

/-- C70: a merged map or block set never equals an unmerged one, whatever they hold. -/
theorem c70_merged_never_unmerged (es fs : List (Key × Value)) (a b : List (List Str × MapValues)) :
    Value.eqMap feq (.merged es) (.unmerged fs) = false ∧ Value.eqMap feq (.unmerged fs) (.merged es) = false ∧
      (Value.block (.merged a)).eq feq (.block (.unmerged b)) = false ∧
      (Value.block (.unmerged b)).eq feq (.block (.merged a)) = false := by
  refine ⟨?_, ?_, ?_, ?_⟩ <;> simp [Value.eq, Value.eqMap, Value.eqBlock]

/-- C70: the order in which a merged map keeps its entries does not matter (an unmerged one: see the examples). -/
theorem c70_hash_order (es fs : List (Key × Value)) (h : UniqueKeys (.map (.merged es))) (hp : es.Perm fs)
    (hF : ∀ x, Value.float x ∈ mapLeaves (.merged es) → feq x x = true) : Value.eqMap feq (.merged es) (.merged fs) = true := by
  have hself := (eqValue_refl_both (F := FloatEq feq)).2 _ h |>.mpr hF
  have hfs : UniqueKeys (.map (.merged fs)) := by
    constructor
    · intro m hm
      cases hm with
      | refl => exact (hp.map _).nodup_iff.mp (h.1 es (.refl _))
      | step _ _ _ hc hi => cases hc with | entry _ p hp' => exact h.1 m (.step _ _ _ (.entry _ p (hp.mem_iff.mpr hp')) hi)
    · intro m hm
      cases hm with
      | step _ _ _ hc hi => cases hc with | entry _ p hp' => exact h.2 m (.step _ _ _ (.entry _ p (hp.mem_iff.mpr hp')) hi)
  rw [c70_maps feq _ _ h hfs]
  obtain ⟨b, e, c, hc, hcp⟩ := eqMap_merged.mp hself
  cases e
  exact eqMap_merged.mpr ⟨fs, rfl, c, hc, hcp.trans hp⟩

/-- C70: an owned copy of a value compares as the value does. -/
theorem c70_as_owned (v w : Value) (hv : UniqueKeys (.val v)) (hw : UniqueKeys (.val w)) : v.eq feq w.asOwned = v.eq feq w := by
  rw [Bool.eq_iff_iff, c19_value_as_owned w hw, c70_values feq _ _ hv (own_unique.1 w hw), c70_values feq _ _ hv hw]
  exact ⟨eqValue_ofOwn_both.1 v w, eqValue_own_both.1 v w⟩

/-- C70: the same for maps. -/
theorem c70_map_as_owned (m n : MapValues) (hm : UniqueKeys (.map m)) (hn : UniqueKeys (.map n)) :
    Value.eqMap feq m (Value.asOwnedMap n) = Value.eqMap feq m n := by
  rw [Bool.eq_iff_iff, c19_map_as_owned n hn, c70_maps feq _ _ hm (own_unique.2 n hn), c70_maps feq _ _ hm hn]
  exact ⟨eqValue_ofOwn_both.2 m n, eqValue_own_both.2 m n⟩

/-- C70: merging respects equality: if two equal values are merged, both fail or both succeed with equal results. -/
theorem c70_merge (v w : Value) (hv : UniqueKeys (.val v)) (hw : UniqueKeys (.val w))
    (h : v.eq feq w = true) :
    (∃ a b, v.merge = .ok a ∧ w.merge = .ok b ∧ a.eq feq b = true) ∨ (∃ a b, v.merge = .error a ∧ w.merge = .error b) := by
  rw [c70_values feq v w hv hw] at h
  cases h1 : v.merge with
  | ok a =>
    obtain ⟨b, h2, h3⟩ := merge_eq_both.1 v w a hv hw h h1
    exact .inl ⟨a, b, rfl, h2, (c70_values feq a b (merge_unique.1 _ _ hv h1) (merge_unique.1 _ _ hw h2)).mpr h3⟩
  | error e =>
    cases h2 : w.merge with
    | error e' => exact .inr ⟨e, e', rfl, rfl⟩
    | ok b =>
      obtain ⟨a, h3, -⟩ := merge_eq_both.1 w v b hw hv (eqValue_flip_both.1 v w h) h2
      rw [h1] at h3; cases h3

/-- C70: the same for maps. -/
theorem c70_merge_map (m n : MapValues) (hm : UniqueKeys (.map m)) (hn : UniqueKeys (.map n))
    (h : Value.eqMap feq m n = true) :
    (∃ a b, MapValues.merge m = .ok a ∧ MapValues.merge n = .ok b ∧ Value.eqMap feq a b = true) ∨
      (∃ a b, MapValues.merge m = .error a ∧ MapValues.merge n = .error b) := by
  unfold MapValues.merge
  rw [c70_maps feq m n hm hn] at h
  cases h1 : Value.mergeMap m with
  | ok a =>
    obtain ⟨b, h2, h3⟩ := merge_eq_both.2 m n a hm hn h h1
    exact .inl ⟨a, b, rfl, h2, (c70_maps feq a b (merge_unique.2 _ _ hm h1) (merge_unique.2 _ _ hn h2)).mpr h3⟩
  | error e =>
    cases h2 : Value.mergeMap n with
    | error e' => exact .inr ⟨e, e', rfl, rfl⟩
    | ok b =>
      obtain ⟨a, h3, -⟩ := merge_eq_both.2 n m b hn hm (eqValue_flip_both.2 m n h) h2
      rw [h1] at h3; cases h3

/-- C70: reading a document, writing what was read and reading that gives an equal map, when the floats in it equal
themselves. -/
theorem c70_reformat (I : Int → Str) (F : F64 → Str) (hI : ∀ k, InI64 k → IntLit (I k) k)
    (hF : ∀ t n f, IsNumber t n → NumberValue P t (.float f) → (∃ m, IsNumber (F f) m) ∧ NumberValue P (F f) (.float f))
    (s : Str) (es : List (Key × Value)) (h : fromStr U P s none = .ok (.unmerged es))
    (hn : ∀ x, Value.float x ∈ mapLeaves (.unmerged es) → feq x x = true) :
    ∃ m, fromStr U P (printEntries I F es) none = .ok m ∧ Value.eqMap feq (.unmerged es) m = true := by
  obtain ⟨es', h1, h2⟩ := c67_reformat U P I F hI hF s es h
  have hu := c19_from_str_valid U P _ _ _ h
  have hu' := c19_from_str_valid U P _ _ _ h1
  refine ⟨_, h1, ?_⟩
  rw [c70_maps feq _ _ hu hu']
  have hself := (eqValue_refl_both (F := FloatEq feq)).2 _ hu |>.mpr hn
  refine eqValue_ofOwn_both.2 _ _ ?_
  have := eqValue_own_both.2 _ _ hself
  simp only [ownMap] at this ⊢
  rwa [h2]

/-! ## the theorems are not vacuous -/

/-- Floats compared by bits, except that one pattern equals nothing. -/
def toyFeq (x y : F64) : Bool := x.bits == y.bits && x.bits != 7

/-- The merged document with its entries in another order. -/
def docShuffled : List (Key × Value) :=
  [(idKey "list", .list [.integer 1, .integer 2]),
   (.identifier (.ownedS "tags".toList), .object [.merged [(idKey "k", .boolean true)], .merged [(idKey "k", .boolean false)]]),
   (idKey "resource", .block (.merged [(["a".toList, "y".toList], .merged [(idKey "n", .integer 2)]),
      (["a".toList, "x".toList], .merged [(idKey "n", .integer 1)])]))]

/-- In any order at any depth; not when anything differs; not when unmerged. -/
example : Value.eqMap toyFeq (.merged docMerged) (.merged docShuffled) = true ∧
    Value.eqMap toyFeq (.merged docMerged) (.merged (docShuffled.drop 1)) = false ∧
    Value.eqMap toyFeq (.unmerged doc) (.unmerged doc.reverse) = false ∧
    Value.eqMap toyFeq (.unmerged doc) (.merged docMerged) = false := by decide +kernel

/-- `unmerge` depends on the order in which the hash map iterates, so it does not respect `==`. -/
theorem c70_unmerge_shows_order : ∃ m n : MapValues, Value.eqMap toyFeq m n = true ∧
    Value.eqMap toyFeq m.unmerge n.unmerge = false :=
  ⟨.merged docMerged, .merged docShuffled, by decide +kernel⟩

/-- A NaN does not equal itself, nor does a list with one. -/
example : (Value.list [.float ⟨7⟩]).eq toyFeq (.list [.float ⟨7⟩]) = false ∧
    (Value.list [.float ⟨8⟩]).eq toyFeq (.list [.float ⟨8⟩]) = true := by decide +kernel

example : UniqueKeys (.map (.merged docMerged)) ∧ UniqueKeys (.map (.unmerged doc)) := by
  have h : UniqueKeys (.map (.unmerged doc)) := by
    have : ¬ HasMerged (.map (.unmerged doc)) := ((c26_is_unmerged (.unmerged doc)).1.mp rfl).2
    exact ⟨fun x hx => absurd (.inl ⟨x, hx⟩) this, fun x hx => absurd (.inr ⟨x, hx⟩) this⟩
  exact ⟨merge_unique.2 _ _ h doc_merges, h⟩

/-- Merging equal maps. -/
example : (MapValues.merge (.unmerged doc)).toOption.isSome = true ∧
    Value.eqMap toyFeq (.unmerged doc) (.unmerged (ownEntries doc)) = true := by decide +kernel

end Verif.Props
