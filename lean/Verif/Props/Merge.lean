import Verif.Proofs.MergeState
/-! # Merging: C23 – C31 -/
set_option autoImplicit false

namespace Verif.Props
open Verif Spec

/-! A concrete document used in the examples below:
```
resource "a" "x" { n = 1 }
resource "a" "y" { n = 2 }
tags { k = true }
tags { k = false }
list = [1, 2]
```
as the (unmerged) value tree the parser builds. -/

/-- An identifier key. -/
def idKey (s : String) : Key := .identifier (.borrowed s.toList)
/-- A string key. -/
def strKey (s : String) : Key := .string (.ownedS s.toList)
/-- The example document. -/
def doc : List (Key × Value) :=
  [(idKey "resource", .block (.unmerged [(["a".toList, "x".toList], .unmerged [(idKey "n", .integer 1)])])),
   (idKey "resource", .block (.unmerged [(["a".toList, "y".toList], .unmerged [(idKey "n", .integer 2)])])),
   (idKey "tags", .object [.unmerged [(idKey "k", .boolean true)]]),
   (idKey "tags", .object [.unmerged [(idKey "k", .boolean false)]]),
   (idKey "list", .list [.integer 1, .integer 2])]
/-- Its merged form. -/
def docMerged : List (Key × Value) :=
  [(idKey "resource", .block (.merged [(["a".toList, "x".toList], .merged [(idKey "n", .integer 1)]),
      (["a".toList, "y".toList], .merged [(idKey "n", .integer 2)])])),
   (idKey "tags", .object [.merged [(idKey "k", .boolean true)], .merged [(idKey "k", .boolean false)]]),
   (idKey "list", .list [.integer 1, .integer 2])]

theorem doc_merges : MapValues.merge (.unmerged doc) = .ok (.merged docMerged) := by rfl

/-! ## C23 -/

/-- C23: merging a map succeeds exactly when in every unmerged map in it no key is illegally repeated: entries with the
same key are all objects or all blocks. -/
theorem c23_map_merge_succeeds_iff (m : MapValues) : (∃ n, m.merge = .ok n) ↔ ∀ es, MapInMap m es → NoClash es :=
  merge_exists.2 m

/-- C23: the same for a value. -/
theorem c23_value_merge_succeeds_iff (v : Value) : (∃ w, v.merge = .ok w) ↔ ∀ es, MapIn v es → NoClash es :=
  merge_exists.1 v

/-- C23: when merging fails, the error describes a clash that is in the tree: the key, the kind of its first entry, and
for objects and blocks the kind of the other entry. -/
theorem c23_map_error (m : MapValues) (e : ValueErr) (h : m.merge = .error e) : ∃ es, MapInMap m es ∧ Clash es e :=
  merge_error.2 m e h

/-- C23: the same for a value. -/
theorem c23_value_error (v : Value) (e : ValueErr) (h : v.merge = .error e) : ∃ es, MapIn v es ∧ Clash es e :=
  merge_error.1 v e h

/-- C23: a clash is an illegal repetition, so an error is never reported for a legal tree. -/
theorem c23_clash_is_illegal (es : List (Key × Value)) (e : ValueErr) (h : Clash es e) : ¬ NoClash es := by
  obtain ⟨pre, a, mid, b, post, rfl, hk, -, hc⟩ := h
  intro hn
  simp only [NoClash, List.append_assoc, List.cons_append, List.pairwise_append, List.pairwise_cons] at hn
  have hs := hn.2.1.1 b (by simp) hk
  rw [mayShare_iff] at hs
  cases hc with
  | illegal h1 h2 => rcases hs with ⟨h, -⟩ | ⟨h, -⟩ <;> contradiction
  | object h1 h2 => rcases hs with ⟨-, h⟩ | ⟨h, -⟩ <;> simp_all
  | block h1 h2 => rcases hs with ⟨h, -⟩ | ⟨-, h⟩ <;> simp_all

/-- C23: a block set merges exactly when all its bodies do. -/
theorem c23_block_merge_succeeds_iff (l : List (List Str × MapValues)) :
    (∃ b, VBlock.merge (.unmerged l) = .ok b) ↔ ∀ p ∈ l, ∃ n, p.2.merge = .ok n := by
  have key : ∀ acc : HashMap (List Str) MapValues,
      (∃ b, VBlock.mergeInto acc l = .ok b) ↔ ∀ p ∈ l, ∃ n, MapValues.merge p.2 = .ok n := by
    induction l with
    | nil => intro acc; simp [VBlock.mergeInto]
    | cons p l ih =>
      intro acc
      obtain ⟨k, v⟩ := p
      rw [List.forall_mem_cons]
      simp only [VBlock.mergeInto]
      cases hv : MapValues.merge v with
      | error e => simp
      | ok w => simpa [hv] using ih (HashMap.insert id k w acc)
  simp only [VBlock.merge, VBlock.newMerged]
  rw [except_map_ok]
  exact key []

example : ∀ es, MapInMap (.unmerged doc) es → NoClash es :=
  (c23_map_merge_succeeds_iff (.unmerged doc)).mp ⟨_, doc_merges⟩
example : MapValues.merge (.unmerged [(idKey "a", .integer 1), (idKey "a", .integer 2)]) =
    .error (.illegalMultipleEntries "a".toList .integer) := by rfl
example : MapValues.merge (.unmerged [(idKey "a", .object []), (idKey "a", .block (.unmerged []))]) =
    .error (.errorMergingKeys "a".toList .object .block) := by rfl

/-! ## C24 -/

/-- C24: a successfully merged map is the merged form of the input: unique keys, each carrying the combination of the
merged values listed under it (`MergesMap`, `Combined`). -/
theorem c24_map (m n : MapValues) (h : m.merge = .ok n) : MergesMap m n := merge_sound.2 m n h

/-- C24: the same for a value. -/
theorem c24_value (v w : Value) (h : v.merge = .ok w) : Merges v w := merge_sound.1 v w h

/-- C24: `new_merged` makes a merged container, the merged form of the list it is given. -/
theorem c24_new_merged (es : List (Key × Value)) (n : MapValues) :
    MapValues.newMerged es = MapValues.merge (.unmerged es) ∧
    (MapValues.newMerged es = .ok n → MergesMap (.unmerged es) n ∧ ∃ m, n = .merged m) := by
  have he : MapValues.newMerged es = MapValues.merge (.unmerged es) := rfl
  refine ⟨he, fun h => ⟨c24_map _ _ (he ▸ h), ?_⟩⟩
  obtain ⟨m, -, rfl⟩ := except_map_eq h
  exact ⟨m, rfl⟩

/-- C24: the keys of the merged map are exactly the keys of the input. -/
theorem c24_keys (es m : List (Key × Value)) (h : MapValues.merge (.unmerged es) = .ok (.merged m)) (q : Bool × Str) :
    q ∈ m.map (fun p => p.1.norm) ↔ q ∈ es.map fun p => p.1.norm := by
  simp only [MapValues.merge, Value.mergeMap] at h
  obtain ⟨m', h', he⟩ := except_map_eq h
  cases he
  obtain ⟨es', hp, ha⟩ := mergeEntries_ok.mp h'
  have he : es'.map (fun p => p.1.norm) = es.map fun p => p.1.norm :=
    allPairs_map_eq hp fun a _ b hb => by rw [hb.1]
  rw [← he]
  have key : ∀ (acc m es : List (Key × Value)), addAll acc es = .ok m →
      (q ∈ m.map (fun p => p.1.norm) ↔ q ∈ acc.map (fun p => p.1.norm) ∨ q ∈ es.map fun p => p.1.norm) := by
    intro acc m es
    induction es generalizing acc with
    | nil => intro h; simp only [addAll, Except.ok.injEq] at h; subst h; simp
    | cons p es ih =>
      obtain ⟨k, v⟩ := p
      intro h
      simp only [addAll] at h
      cases ha : addEntry acc k v with
      | error e => simp [ha] at h
      | ok acc' =>
        simp only [ha] at h
        rw [ih acc' h, (addEntry_ok ha).2.2]
        simp only [List.map_cons, List.mem_cons]
        split
        · rename_i hk
          constructor
          · rintro (h | h)
            · exact .inl h
            · exact .inr (.inr h)
          · rintro (h | rfl | h)
            · exact .inl h
            · exact .inl hk
            · exact .inr h
        · simp only [List.mem_append, List.mem_singleton, or_assoc]
  have := key [] m es' ha
  simpa using this

/-- C24: a key listed once carries its (merged) value, whatever it is; in particular scalars, nulls and lists. -/
theorem c24_single (es m : List (Key × Value)) (h : MapValues.merge (.unmerged es) = .ok (.merged m)) (k : Bool × Str)
    (v : Value) (hv : valuesUnder Key.norm k es = [v]) :
    ∃ w, v.merge = .ok w ∧ HashMap.get Key.norm k m = some w := by
  simp only [MapValues.merge, Value.mergeMap] at h
  obtain ⟨m', h', he⟩ := except_map_eq h
  cases he
  obtain ⟨es', hp, ha⟩ := mergeEntries_ok.mp h'
  have hq : AllPairs (fun v w => v.merge = .ok w) (valuesUnder Key.norm k es) (valuesUnder Key.norm k es') :=
    valuesUnder_pairs hp k
  have hg := addAll_get ha k
  rw [hv] at hq
  generalize valuesUnder Key.norm k es' = vs at hq hg
  cases hq with
  | cons _ w _ l h1 h2 =>
    cases h2
    exact ⟨w, h1, by simpa [combinedAll, combined, HashMap.get] using hg⟩

/-- C24: a key listed with several objects carries all their (merged) maps, in order. -/
theorem c24_objects (es m : List (Key × Value)) (h : MapValues.merge (.unmerged es) = .ok (.merged m)) (k : Bool × Str)
    (ls : List (List MapValues)) (hne : ls ≠ []) (hv : valuesUnder Key.norm k es = ls.map .object) :
    ∃ ms, MergesMaps ls.flatten ms ∧ HashMap.get Key.norm k m = some (.object ms) := by
  simp only [MapValues.merge, Value.mergeMap] at h
  obtain ⟨m', h', he⟩ := except_map_eq h
  cases he
  obtain ⟨es', hp, ha⟩ := mergeEntries_ok.mp h'
  have hq : AllPairs (fun v w => v.merge = .ok w) (valuesUnder Key.norm k es) (valuesUnder Key.norm k es') :=
    valuesUnder_pairs hp k
  have hg := addAll_get ha k
  rw [hv] at hq
  have happ : ∀ a b c d, MergesMaps a b → MergesMaps c d → MergesMaps (a ++ c) (b ++ d) := by
    intro a
    induction a with
    | nil => intro b c d h1 h2; cases h1; exact h2
    | cons x a ih =>
      intro b c d h1 h2
      cases h1 with
      | cons _ n _ l' hx hl => exact .cons _ _ _ _ hx (ih _ _ _ hl h2)
  have key : ∀ (ls : List (List MapValues)) (vs : List Value), AllPairs (fun v w => v.merge = .ok w) (ls.map Value.object) vs →
      ∃ ls' : List (List MapValues), vs = ls'.map .object ∧ MergesMaps ls.flatten ls'.flatten ∧ ls'.length = ls.length := by
    intro ls
    induction ls with
    | nil => intro vs h; cases h; exact ⟨[], rfl, .nil, rfl⟩
    | cons l ls ih =>
      intro vs h
      cases h with
      | cons _ w _ ws h1 h2 =>
        obtain ⟨ls', rfl, h3, h4⟩ := ih ws h2
        have hs := merge_sound.1 _ _ h1
        cases hs with
        | scalar => rename_i h _; simp [Value.variant] at h
        | object =>
          rename_i l' hl
          exact ⟨l' :: ls', rfl, happ _ _ _ _ hl h3, by simp [h4]⟩
  obtain ⟨ls', hls, h3, h4⟩ := key ls _ hq
  refine ⟨ls'.flatten, h3, ?_⟩
  rw [hg, hls]
  cases ls' with
  | nil => cases ls with
    | nil => exact absurd rfl hne
    | cons _ _ => simp at h4
  | cons l ls' =>
    have := combinedAll_objects l ls'
    simpa [combinedAll, combined, HashMap.get] using this

/-- C24: merging a block set merges its bodies and keeps for every label path the last body listed for it. -/
theorem c24_block (l : List (List Str × MapValues)) (b : VBlock) (h : VBlock.merge (.unmerged l) = .ok b) :
    ∃ es m, MergesBodies l es ∧ LastWins es m ∧ b = .merged m := by
  simp only [VBlock.merge, VBlock.newMerged] at h
  obtain ⟨m, h', rfl⟩ := except_map_eq h
  have key : ∀ (l : List (List Str × MapValues)) acc, VBlock.mergeInto acc l = .ok m →
      ∃ es, MergesBodies l es ∧ m = HashMap.extend id acc es := by
    intro l
    induction l with
    | nil => intro acc h; simp only [VBlock.mergeInto, Except.ok.injEq] at h; exact ⟨[], .nil, h.symm⟩
    | cons p l ih =>
      intro acc h
      obtain ⟨k, v⟩ := p
      simp only [VBlock.mergeInto] at h
      cases hv : MapValues.merge v with
      | error e => simp [hv] at h
      | ok w =>
        simp only [hv] at h
        obtain ⟨es, h1, h2⟩ := ih _ h
        exact ⟨(k, w) :: es, .cons _ _ _ _ _ (merge_sound.2 v w hv) h1, h2⟩
  obtain ⟨es, h1, rfl⟩ := key l [] h'
  exact ⟨es, _, h1, lastWins_collect es, rfl⟩

example : MergesMap (.unmerged doc) (.merged docMerged) := c24_map _ _ doc_merges
example : valuesUnder Key.norm (idKey "list").norm doc = [.list [.integer 1, .integer 2]] := by rfl
example : valuesUnder Key.norm (idKey "tags").norm doc =
    [[.unmerged [(idKey "k", .boolean true)]], [.unmerged [(idKey "k", .boolean false)]]].map Value.object := by rfl

/-! ## C25 -/

/-- C25: merging is idempotent. -/
theorem c25_value_idempotent (v w : Value) (h : v.merge = .ok w) : w.merge = .ok w := merge_idem h

/-- C25: the same for maps. -/
theorem c25_map_idempotent (m n : MapValues) (h : m.merge = .ok n) : n.merge = .ok n := by
  obtain ⟨x, rfl⟩ := mergeMap_merged h
  rfl

/-- C25: the same for block sets. -/
theorem c25_block_idempotent (b c : VBlock) (h : b.merge = .ok c) : c.merge = .ok c := by
  cases b with
  | merged m => simp only [VBlock.merge, Except.ok.injEq] at h; subst h; rfl
  | unmerged l =>
    obtain ⟨es, m, -, -, rfl⟩ := c24_block l c h
    rfl

/-- C25: a tree in which nothing is unmerged (and whose block sets, being hash maps, have distinct labels) is returned
unchanged, and merging it never fails. -/
theorem c25_merged_unchanged (v : Value) (h : ¬ HasUnmerged (.val v))
    (hn : ∀ m, Inside (.val v) (.blk (.merged m)) → (m.map Prod.fst).Nodup) : v.merge = .ok v :=
  merge_merged.1 v h hn

/-- C25: a merged map is returned unchanged. -/
theorem c25_merged_map_unchanged (m : HashMap Key Value) : MapValues.merge (.merged m) = .ok (.merged m) := rfl

example : MapValues.merge (.merged docMerged) = .ok (.merged docMerged) := c25_map_idempotent _ _ doc_merges

/-! ## C26 -/

/-- C26: after merging nothing is left unmerged, if the maps that were merged already are merged all the way down. -/
theorem c26_merge_leaves_nothing_unmerged (m n : MapValues) (hc : MergedMapsComplete (.map m)) (h : m.merge = .ok n) :
    ¬ HasUnmerged (.map n) := merge_noUnmerged.2 m n hc h

/-- C26: the same for a value. -/
theorem c26_value_merge_leaves_nothing_unmerged (v w : Value) (hc : MergedMapsComplete (.val v)) (h : v.merge = .ok w) :
    ¬ HasUnmerged (.val w) := merge_noUnmerged.1 v w hc h

/-- C26: `is_merged` of a map answers true exactly when it contains no Null and nothing unmerged; an answer of false is
right; it panics (`none`) only if there is a Null in the tree, and always panics if there is a Null and nothing is
unmerged. -/
theorem c26_is_merged (m : MapValues) :
    (Value.isMergedMap m = some true ↔ ¬ HasNull (.map m) ∧ ¬ HasUnmerged (.map m)) ∧
    (Value.isMergedMap m = some false → HasUnmerged (.map m)) ∧
    (Value.isMergedMap m = none → HasNull (.map m)) ∧
    (HasNull (.map m) → ¬ HasUnmerged (.map m) → Value.isMergedMap m = none) := by
  have h := isMerged_answer.2 m
  refine ⟨h.yes, h.no, h.panic, ?_⟩
  intro hn hu
  match hr : Value.isMergedMap m with
  | none => rfl
  | some true => exact absurd hn (h.yes.mp hr).1
  | some false => exact absurd (h.no hr) hu

/-- C26: the same for a value. -/
theorem c26_value_is_merged (v : Value) :
    (v.isMerged = some true ↔ ¬ HasNull (.val v) ∧ ¬ HasUnmerged (.val v)) ∧
    (v.isMerged = some false → HasUnmerged (.val v)) ∧ (v.isMerged = none → HasNull (.val v)) ∧
    (HasNull (.val v) → ¬ HasUnmerged (.val v) → v.isMerged = none) := by
  have h := isMerged_answer.1 v
  refine ⟨h.yes, h.no, h.panic, ?_⟩
  intro hn hu
  match hr : v.isMerged with
  | none => rfl
  | some true => exact absurd hn (h.yes.mp hr).1
  | some false => exact absurd (h.no hr) hu

/-- C26: the same for `is_unmerged`. -/
theorem c26_is_unmerged (m : MapValues) :
    (Value.isUnmergedMap m = some true ↔ ¬ HasNull (.map m) ∧ ¬ HasMerged (.map m)) ∧
    (Value.isUnmergedMap m = some false → HasMerged (.map m)) ∧
    (Value.isUnmergedMap m = none → HasNull (.map m)) ∧
    (HasNull (.map m) → ¬ HasMerged (.map m) → Value.isUnmergedMap m = none) := by
  have h := isUnmerged_answer.2 m
  refine ⟨h.yes, h.no, h.panic, ?_⟩
  intro hn hu
  match hr : Value.isUnmergedMap m with
  | none => rfl
  | some true => exact absurd hn (h.yes.mp hr).1
  | some false => exact absurd (h.no hr) hu

/-- C26: the same for `is_unmerged` of a value. -/
theorem c26_value_is_unmerged (v : Value) :
    (v.isUnmerged = some true ↔ ¬ HasNull (.val v) ∧ ¬ HasMerged (.val v)) ∧
    (v.isUnmerged = some false → HasMerged (.val v)) ∧ (v.isUnmerged = none → HasNull (.val v)) ∧
    (HasNull (.val v) → ¬ HasMerged (.val v) → v.isUnmerged = none) := by
  have h := isUnmerged_answer.1 v
  refine ⟨h.yes, h.no, h.panic, ?_⟩
  intro hn hu
  match hr : v.isUnmerged with
  | none => rfl
  | some true => exact absurd hn (h.yes.mp hr).1
  | some false => exact absurd (h.no hr) hu

/-- C26: after merging a map without Null, `is_merged` is true. -/
theorem c26_is_merged_after_merge (m n : MapValues) (hc : MergedMapsComplete (.map m)) (hn : ¬ HasNull (.map m))
    (h : m.merge = .ok n) : Value.isMergedMap n = some true := by
  refine (c26_is_merged n).1.mpr ⟨?_, c26_merge_leaves_nothing_unmerged m n hc h⟩
  intro hnn
  obtain ⟨lost, hp⟩ := (merge_leaves.2 m n h).1
  exact hn (null_mem_leaves.2 m |>.mp (hp.subset (List.mem_append.mpr (.inl (null_mem_leaves.2 n |>.mpr hnn)))))

/-- C26 is false in general: a merged map with a Null makes `is_merged` panic. -/
theorem c26_null_panics : ∃ es m, MapValues.merge (.unmerged es) = .ok m ∧ Value.isMergedMap m = none :=
  ⟨[(idKey "a", .null)], .merged [(idKey "a", .null)], rfl, rfl⟩

example : Value.isMergedMap (.merged docMerged) = some true := by rfl
example : Value.isUnmergedMap (.unmerged doc) = some true := by rfl
example : ¬ HasNull (.map (.unmerged doc)) ∧ ¬ HasMerged (.map (.unmerged doc)) := (c26_is_unmerged (.unmerged doc)).1.mp rfl
example : MergedMapsComplete (.map (.unmerged doc)) := fun m hm =>
  absurd (Or.inl ⟨m, hm⟩) ((c26_is_unmerged (.unmerged doc)).1.mp rfl).2

/-! ## C27 -/

/-- C27: `len_scalar` counts the leaves; it panics exactly if there is a Null. -/
theorem c27_len_scalar_map (m : MapValues) :
    (HasNull (.map m) → Value.lenScalarMap m = none) ∧
    (¬ HasNull (.map m) → Value.lenScalarMap m = some (mapLeaves m).length) := by
  classical
  rw [lenScalar_eq.2 m, ← null_mem_leaves.2 m]
  exact ⟨fun h => if_pos h, fun h => if_neg h⟩

/-- C27: the same for a value. -/
theorem c27_len_scalar (v : Value) :
    (HasNull (.val v) → v.lenScalar = none) ∧ (¬ HasNull (.val v) → v.lenScalar = some (leaves v).length) := by
  classical
  rw [lenScalar_eq.1 v, ← null_mem_leaves.1 v]
  exact ⟨fun h => if_pos h, fun h => if_neg h⟩

/-- C27: merging keeps all leaves (as a multiset), if no two blocks of the same type in the same map have the same
labels. -/
theorem c27_merge_keeps_leaves (m n : MapValues) (hd : LabelsDistinctMap m) (h : m.merge = .ok n) :
    (mapLeaves n).Perm (mapLeaves m) := (merge_leaves.2 m n h).2 hd

/-- C27: the same for a value. -/
theorem c27_value_merge_keeps_leaves (v w : Value) (hd : LabelsDistinct v) (h : v.merge = .ok w) :
    (leaves w).Perm (leaves v) := ((merge_leaves.1 v w h).2 hd).1

/-- C27: so it keeps `len_scalar` (also its panics). -/
theorem c27_merge_keeps_len_scalar (m n : MapValues) (hd : LabelsDistinctMap m) (h : m.merge = .ok n) :
    Value.lenScalarMap n = Value.lenScalarMap m := by
  classical
  have hp := c27_merge_keeps_leaves m n hd h
  rw [lenScalar_eq.2, lenScalar_eq.2]
  simp only [hp.mem_iff, hp.length_eq]

/-- C27: in general merging invents no leaves: the leaves of the result together with those lost are the leaves of the
input. -/
theorem c27_merge_invents_nothing (m n : MapValues) (h : m.merge = .ok n) :
    ∃ lost, (mapLeaves n ++ lost).Perm (mapLeaves m) := (merge_leaves.2 m n h).1

example : LabelsDistinctMap (.unmerged [(idKey "r", .block (.unmerged [(["a".toList], .unmerged [(idKey "n", .integer 1)])])),
    (idKey "r", .block (.unmerged [(["b".toList], .unmerged [(idKey "n", .integer 2)])]))]) := by
  have hmap : ∀ i, LabelsDistinctMap (.unmerged [(idKey "n", .integer i)]) := fun i =>
    .unmerged _ (by simp only [List.forall_mem_cons]; exact ⟨.scalar _ (by simp [Value.variant]) (by simp [Value.variant]) (by simp [Value.variant]), by simp⟩)
      (by intro k; by_cases h : (idKey "n").norm = k <;> simp [valuesUnder, h, blockEntries])
  refine .unmerged _ ?_ ?_
  · simp only [List.forall_mem_cons]
    exact ⟨.block _ (by simp [KVP.entries]) (by simp only [KVP.entries, List.forall_mem_cons]; exact ⟨hmap 1, by simp⟩),
      .block _ (by simp [KVP.entries]) (by simp only [KVP.entries, List.forall_mem_cons]; exact ⟨hmap 2, by simp⟩), by simp⟩
  · intro k
    by_cases h : (idKey "r").norm = k
    · simp [valuesUnder, h, blockEntries, KVP.entries]
    · simp [valuesUnder, h, blockEntries]

/-! ## C28 -/

/-- C28 is false: of two blocks of the same type with the same labels the earlier one is silently lost on merge, for all
types, labels and bodies. -/
theorem c28_same_labels_overwritten (k : Key) (ls : List Str) (b1 b2 m1 m2 : MapValues) (h1 : b1.merge = .ok m1)
    (h2 : b2.merge = .ok m2) :
    MapValues.merge (.unmerged [(k, .block (.unmerged [(ls, b1)])), (k, .block (.unmerged [(ls, b2)]))]) =
      .ok (.merged [(k, .block (.merged [(ls, m2)]))]) := by
  have e1 : Value.mergeMap b1 = .ok m1 := h1
  have e2 : Value.mergeMap b2 = .ok m2 := h2
  simp [MapValues.merge, Value.mergeMap, Value.mergeEntries, Value.merge, Value.mergeBlock, Value.mergeBodies, e1, e2,
    Except.map, addEntry, combineValues, HashMap.collect, HashMap.extend, HashMap.insert, KVP.extend, KVP.entries]

/-- C28: so a leaf of the input is missing in the merged result, and no error is reported. -/
theorem c28_leaf_lost : ∃ es n, MapValues.merge (.unmerged es) = .ok n ∧ (∃ v ∈ mapLeaves (.unmerged es), v ∉ mapLeaves n) :=
  ⟨[(idKey "r", .block (.unmerged [(["a".toList], .unmerged [(idKey "n", .integer 1)])])),
    (idKey "r", .block (.unmerged [(["a".toList], .unmerged [(idKey "n", .integer 2)])]))],
   .merged [(idKey "r", .block (.merged [(["a".toList], .merged [(idKey "n", .integer 2)])]))], rfl, .integer 1,
   by simp [mapLeaves, entriesLeaves, leaves, blockLeaves, bodiesLeaves],
   by simp [mapLeaves, entriesLeaves, leaves, blockLeaves, bodiesLeaves]⟩

/-- C28: the surviving block is the last one with its labels: the blocks under a key after merging are those listed
under it, the last one winning for each label path. -/
theorem c28_last_block_wins (es m : List (Key × Value)) (h : MapValues.merge (.unmerged es) = .ok (.merged m))
    (k : Bool × Str) (bs : List VBlock) (hne : bs ≠ []) (hv : valuesUnder Key.norm k es = bs.map .block) :
    ∃ ms b, MergesBodies (bs.flatMap KVP.entries) ms ∧ HashMap.get Key.norm k m = some (.block (.merged b)) ∧
      LastWins ms b := by
  simp only [MapValues.merge, Value.mergeMap] at h
  obtain ⟨m', h', he⟩ := except_map_eq h
  cases he
  obtain ⟨es', hp, ha⟩ := mergeEntries_ok.mp h'
  have hq : AllPairs (fun v w => v.merge = .ok w) (valuesUnder Key.norm k es) (valuesUnder Key.norm k es') :=
    valuesUnder_pairs hp k
  have hg := addAll_get ha k
  rw [hv] at hq
  have happ : ∀ a b c d, MergesBodies a b → MergesBodies c d → MergesBodies (a ++ c) (b ++ d) := by
    intro a
    induction a with
    | nil => intro b c d h1 h2; cases h1; exact h2
    | cons x a ih =>
      intro b c d h1 h2
      cases h1 with
      | cons => rename_i hx hl; exact .cons _ _ _ _ _ hx (ih _ _ _ hl h2)
  -- the merged blocks, with the bodies before the collection into hash maps
  have key : ∀ (bs : List VBlock) (vs : List Value), AllPairs (fun v w => v.merge = .ok w) (bs.map Value.block) vs →
      ∃ ess : List (List (List Str × MapValues)), vs = ess.map (fun es => .block (.merged (HashMap.collect id es))) ∧
        MergesBodies (bs.flatMap KVP.entries) ess.flatten ∧ ess.length = bs.length := by
    intro bs
    induction bs with
    | nil => intro vs h; cases h; exact ⟨[], rfl, .nil, rfl⟩
    | cons b bs ih =>
      intro vs h
      cases h with
      | cons _ w _ ws h1 h2 =>
        obtain ⟨ess, rfl, h3, h4⟩ := ih ws h2
        simp only [Value.merge, mergeBlock_eq] at h1
        obtain ⟨es, h1', rfl⟩ := except_map_eq h1
        refine ⟨es :: ess, rfl, happ _ _ _ _ ?_ h3, by simp [h4]⟩
        have hpb := mergeBodies_ok.mp h1'
        clear h1 h1' h2 h3 h4 ih
        generalize b.entries = l at hpb
        induction hpb with
        | nil => exact .nil
        | cons a b as bs h1 h2 ih2 =>
          obtain ⟨k, v⟩ := a
          obtain ⟨k', w⟩ := b
          obtain ⟨rfl, h1⟩ := h1
          exact .cons _ _ _ _ _ (merge_sound.2 _ _ h1) ih2
  obtain ⟨ess, hess, h3, h4⟩ := key bs _ hq
  cases ess with
  | nil => cases bs with
    | nil => exact absurd rfl hne
    | cons _ _ => simp at h4
  | cons e0 ess =>
    have hfold : combinedAll none ((e0 :: ess).map fun es => Value.block (.merged (HashMap.collect id es))) =
        some (.block (.merged (HashMap.extend id (HashMap.collect id e0) ((ess.map (HashMap.collect id)).flatten)))) := by
      have := combinedAll_blocks (HashMap.collect id e0) (ess.map fun es => KVP.merged (HashMap.collect id es))
      simpa [combinedAll, combined, List.map_map, Function.comp_def, List.flatMap_def, KVP.entries] using this
    refine ⟨_, HashMap.extend id (HashMap.collect id e0) ((ess.map (HashMap.collect id)).flatten), h3, ?_, ?_⟩
    · rw [hg, hess]
      exact hfold
    · have hw : ∀ es ls, HashMap.get id ls (HashMap.collect id es) = (valuesUnder id ls es).getLast? :=
        fun es ls => (lastWins_collect es).2 ls
      have hlast : ∀ (es : List (List Str × MapValues)) (ls : List Str), (valuesUnder id ls (HashMap.collect id es)).getLast? = (valuesUnder id ls es).getLast? := by
        intro es ls
        rw [← hw es ls, hashMap_get_values]
        have h1 := valuesUnder_length_le_one (id : List Str → List Str) ls (HashMap.collect id es)
          (by simpa using (lastWins_collect es).1)
        match hvv : valuesUnder id ls (HashMap.collect id es), h1 with
        | [], _ => simp
        | [v], _ => simp
        | _ :: _ :: _, h1 => simp at h1
      have hx := lastWins_extend (HashMap.collect id e0) ((ess.map (HashMap.collect id)).flatten) (lastWins_collect e0).1
      refine ⟨hx.1, fun ls => ?_⟩
      rw [hx.2 ls, List.flatten_cons, valuesUnder_append, valuesUnder_append, List.getLast?_append, List.getLast?_append,
        hlast e0 ls]
      have : ∀ ess : List (List (List Str × MapValues)),
          (valuesUnder id ls (ess.map (HashMap.collect id)).flatten).getLast? = (valuesUnder id ls ess.flatten).getLast? := by
        intro ess
        induction ess with
        | nil => rfl
        | cons e ess ih =>
          simp only [List.map_cons, List.flatten_cons]
          rw [valuesUnder_append, valuesUnder_append, List.getLast?_append, List.getLast?_append, ih, hlast]
      rw [this]

/-! ## C29 -/

/-- C29: in a merged map no two entries have the same key (variant and text). -/
theorem c29_keys_unique (es m : List (Key × Value)) (h : MapValues.merge (.unmerged es) = .ok (.merged m)) :
    (m.map fun p => p.1.norm).Nodup := by
  have := c24_map _ _ h
  cases this with
  | unmerged => assumption

/-- C29: so if all keys of the input are identifiers, or all are strings, a text matches at most one entry. -/
theorem c29_texts_unique (es m : List (Key × Value)) (h : MapValues.merge (.unmerged es) = .ok (.merged m))
    (hv : ∀ p ∈ es, ∀ q ∈ es, p.1.norm.1 = q.1.norm.1) : (m.map fun p => p.1.text).Nodup := by
  have hn := c29_keys_unique es m h
  have hk := c24_keys es m h
  have hall : ∀ p ∈ m, ∃ q ∈ es, q.1.norm = p.1.norm := by
    intro p hp
    have := (hk p.1.norm).mp (List.mem_map.mpr ⟨p, hp, rfl⟩)
    obtain ⟨q, hq, he⟩ := List.mem_map.mp this
    exact ⟨q, hq, he⟩
  have htext : ∀ k : Key, k.text = k.norm.2 := by intro k; cases k <;> rfl
  have hsame : ∀ p ∈ m, ∀ q ∈ m, p.1.text = q.1.text → p.1.norm = q.1.norm := by
    intro p hp q hq he
    obtain ⟨p', hp', e1⟩ := hall p hp
    obtain ⟨q', hq', e2⟩ := hall q hq
    have := hv p' hp' q' hq'
    rw [e1, e2] at this
    rw [htext, htext] at he
    exact Prod.ext this he
  clear hk hall hv h
  induction m with
  | nil => simp
  | cons p m ih =>
    simp only [List.map_cons, List.nodup_cons] at hn ⊢
    refine ⟨?_, ih hn.2 fun a ha b hb => hsame a (by simp [ha]) b (by simp [hb])⟩
    intro hmem
    obtain ⟨q, hq, he⟩ := List.mem_map.mp hmem
    exact hn.1 (List.mem_map.mpr ⟨q, hq, hsame q (by simp [hq]) p (by simp) he⟩)

/-- C29 is false in general: an identifier key and a string key with the same text are two entries, and which one a
lookup by text finds depends on the iteration order of the hash map. -/
theorem c29_variants_clash : ∃ es m m', MapValues.merge (.unmerged es) = .ok (.merged m) ∧ m'.Perm m ∧
    ¬ (m.map fun p => p.1.text).Nodup ∧
    HashMap.get Key.text "a".toList m = some (.integer 1) ∧ HashMap.get Key.text "a".toList m' = some (.integer 2) :=
  ⟨[(idKey "a", .integer 1), (strKey "a", .integer 2)], [(idKey "a", .integer 1), (strKey "a", .integer 2)],
   [(strKey "a", .integer 2), (idKey "a", .integer 1)], rfl, List.Perm.swap _ _ _, by simp [idKey, strKey, Key.text, CowStr.borrowed, CowStr.ownedS],
   rfl, rfl⟩

/-! ## C30 -/

/-- C30: merging two maps that list the same values under every key, in the same order for each key, gives the same
answer (success or not) and the same value under every key: the order of different keys does not matter. -/
theorem c30_order_of_keys (es1 es2 : List (Key × Value))
    (h : ∀ k, valuesUnder Key.norm k es1 = valuesUnder Key.norm k es2) :
    ((∃ m, MapValues.merge (.unmerged es1) = .ok m) ↔ ∃ m, MapValues.merge (.unmerged es2) = .ok m) ∧
    ∀ m1 m2, MapValues.merge (.unmerged es1) = .ok (.merged m1) → MapValues.merge (.unmerged es2) = .ok (.merged m2) →
      ∀ k, HashMap.get Key.norm k m1 = HashMap.get Key.norm k m2 := by
  have hmem : ∀ (a b : List (Key × Value)), (∀ k, valuesUnder Key.norm k a = valuesUnder Key.norm k b) →
      ∀ p ∈ a, ∃ q ∈ b, q.1.norm = p.1.norm ∧ q.2 = p.2 := by
    intro a b hab p hp
    have : p.2 ∈ valuesUnder Key.norm p.1.norm a := mem_valuesUnder.mpr ⟨p, hp, rfl, rfl⟩
    rw [hab] at this
    exact mem_valuesUnder.mp this
  have hclash : ∀ es : List (Key × Value), NoClash es ↔ ∀ k, (valuesUnder Key.norm k es).Pairwise MayShare := by
    intro es
    refine ⟨fun h k => valuesUnder_pairwise h k, ?_⟩
    intro h
    induction es with
    | nil => exact List.Pairwise.nil
    | cons p es ih =>
      obtain ⟨k, v⟩ := p
      refine List.Pairwise.cons ?_ (ih fun q => ?_)
      · intro p hp he
        have := h k.norm
        simp only [valuesUnder, if_true, List.pairwise_cons] at this
        exact this.1 p.2 (mem_valuesUnder.mpr ⟨p, hp, he.symm, rfl⟩)
      · have := h q
        simp only [valuesUnder] at this
        split at this
        · exact (List.pairwise_cons.mp this).2
        · exact this
  constructor
  · simp only [MapValues.merge, Value.mergeMap]
    rw [except_map_ok, except_map_ok, mergeEntries_exists, mergeEntries_exists, hclash, hclash]
    simp only [h]
    refine and_congr ?_ Iff.rfl
    constructor
    · intro ha p hp
      obtain ⟨q, hq, -, he⟩ := hmem es2 es1 (fun k => (h k).symm) p hp
      rw [← he]; exact ha q hq
    · intro ha p hp
      obtain ⟨q, hq, -, he⟩ := hmem es1 es2 h p hp
      rw [← he]; exact ha q hq
  · intro m1 m2 h1 h2 k
    simp only [MapValues.merge, Value.mergeMap] at h1 h2
    obtain ⟨m1', h1', e1⟩ := except_map_eq h1
    obtain ⟨m2', h2', e2⟩ := except_map_eq h2
    cases e1
    cases e2
    obtain ⟨es1', hp1, ha1⟩ := mergeEntries_ok.mp h1'
    obtain ⟨es2', hp2, ha2⟩ := mergeEntries_ok.mp h2'
    rw [addAll_get ha1 k, addAll_get ha2 k]
    have q1 := valuesUnder_pairs (R := fun v w => v.merge = .ok w) hp1 k
    have q2 := valuesUnder_pairs (R := fun v w => v.merge = .ok w) hp2 k
    rw [h k] at q1
    have : ∀ l a b, AllPairs (fun v w : Value => v.merge = .ok w) l a → AllPairs (fun v w => v.merge = .ok w) l b → a = b := by
      intro l
      induction l with
      | nil => intro a b ha hb; cases ha; cases hb; rfl
      | cons x l ih =>
        intro a b ha hb
        cases ha with
        | cons _ y _ ys g1 g2 => cases hb with
          | cons _ z _ zs k1 k2 =>
            rw [g1] at k1
            cases k1
            rw [ih _ _ g2 k2]
    rw [this _ _ _ q1 q2]

/-- C30: in particular for two neighbours with different keys. -/
theorem c30_swap (pre post : List (Key × Value)) (a b : Key × Value) (hk : a.1.norm ≠ b.1.norm) :
    ((∃ m, MapValues.merge (.unmerged (pre ++ a :: b :: post)) = .ok m) ↔
      ∃ m, MapValues.merge (.unmerged (pre ++ b :: a :: post)) = .ok m) ∧
    ∀ m1 m2, MapValues.merge (.unmerged (pre ++ a :: b :: post)) = .ok (.merged m1) →
      MapValues.merge (.unmerged (pre ++ b :: a :: post)) = .ok (.merged m2) →
      ∀ k, HashMap.get Key.norm k m1 = HashMap.get Key.norm k m2 := by
  apply c30_order_of_keys
  intro k
  rw [valuesUnder_append, valuesUnder_append]
  obtain ⟨ka, va⟩ := a
  obtain ⟨kb, vb⟩ := b
  simp only at hk
  by_cases h1 : ka.norm = k
  · have h2 : ¬ kb.norm = k := fun h => hk (h1.trans h.symm)
    simp [valuesUnder, h1, h2]
  · simp [valuesUnder, h1]

example : (idKey "a").norm ≠ (idKey "b").norm ∧
    (∃ m, MapValues.merge (.unmerged [(idKey "a", .integer 1), (idKey "b", .null)]) = .ok m) :=
  ⟨by simp [idKey, Key.norm, CowStr.borrowed], _, rfl⟩

/-! ## C31 -/

/-- C31: unmerging a map that was produced by merging, in whatever order the hash map iterates, and merging it again
succeeds and gives back the same entries. -/
theorem c31_unmerge_merge (es m : List (Key × Value)) (h : MapValues.merge (.unmerged es) = .ok (.merged m))
    (m' : List (Key × Value)) (hp : m'.Perm m) :
    MapValues.merge (MapValues.unmerge (.merged m')) = .ok (.merged m') := by
  have hn := c29_keys_unique es m h
  simp only [MapValues.merge, Value.mergeMap] at h
  obtain ⟨m1, h', he⟩ := except_map_eq h
  cases he
  obtain ⟨es', hp', ha⟩ := mergeEntries_ok.mp h'
  have hfix : ∀ p ∈ m, p.2.merge = .ok p.2 := by
    refine addAll_forall (F := fun v => v.merge = .ok v) (fun old v h1 h2 hs => combined_fixed old v h1 h2 hs) (by simp) ?_ ha
    intro p hpe
    obtain ⟨a, -, -, hm⟩ := allPairs_right hp' p hpe
    exact merge_idem hm
  simp only [MapValues.unmerge, MapValues.merge, Value.mergeMap]
  have : Value.mergeEntries [] m' = .ok m' := by
    refine mergeEntries_ok.mpr ⟨m', allPairs_self.mpr fun p hpm => ⟨rfl, hfix p (hp.subset hpm)⟩, ?_⟩
    have := addAll_distinct [] m' (by
      simp only [List.nil_append]
      exact (hp.map fun p => p.1.norm).nodup_iff.mpr hn)
    simpa using this
  rw [this]
  rfl

/-- C31: `unmerge` always gives an unmerged map (or block set) with the same entries; one that is not merged is left as it is. -/
theorem c31_unmerge_entries (es : List (Key × Value)) (bs : List (List Str × MapValues)) :
    MapValues.unmerge (.merged es) = .unmerged es ∧ MapValues.unmerge (.unmerged es) = .unmerged es ∧
      VBlock.unmerge (.merged bs) = .unmerged bs ∧ VBlock.unmerge (.unmerged bs) = .unmerged bs := ⟨rfl, rfl, rfl, rfl⟩

/-- C31: the same for block sets. -/
theorem c31_block_unmerge_merge (l m : List (List Str × MapValues)) (h : VBlock.merge (.unmerged l) = .ok (.merged m))
    (m' : List (List Str × MapValues)) (hp : m'.Perm m) :
    VBlock.merge (VBlock.unmerge (.merged m')) = .ok (.merged m') := by
  have hfix : ∀ p ∈ m, MapValues.merge p.2 = .ok p.2 := by
    simp only [VBlock.merge, VBlock.newMerged] at h
    obtain ⟨m1, h', he⟩ := except_map_eq h
    cases he
    have key : ∀ (l acc : List (List Str × MapValues)), (∀ p ∈ acc, MapValues.merge p.2 = .ok p.2) →
        VBlock.mergeInto acc l = .ok m → ∀ p ∈ m, MapValues.merge p.2 = .ok p.2 := by
      intro l
      induction l with
      | nil => intro acc hacc h; simp only [VBlock.mergeInto, Except.ok.injEq] at h; exact h ▸ hacc
      | cons p l ih =>
        intro acc hacc h
        obtain ⟨k, v⟩ := p
        simp only [VBlock.mergeInto] at h
        cases hv : MapValues.merge v with
        | error e => simp [hv] at h
        | ok w =>
          simp only [hv] at h
          refine ih _ ?_ h
          intro p hp
          rcases mem_insert id k w acc p hp with hpw | hpa
          · rw [hpw]; exact c25_map_idempotent v w hv
          · exact hacc p hpa
    exact key l [] (by simp) h'
  obtain ⟨es, mm, -, hw, he⟩ := c24_block l _ h
  cases he
  simp only [VBlock.unmerge, VBlock.merge, VBlock.newMerged]
  have key : ∀ (l acc : List (List Str × MapValues)), (∀ p ∈ l, MapValues.merge p.2 = .ok p.2) →
      VBlock.mergeInto acc l = .ok (HashMap.extend id acc l) := by
    intro l
    induction l with
    | nil => intro acc _; rfl
    | cons p l ih =>
      intro acc hl
      obtain ⟨k, v⟩ := p
      rw [List.forall_mem_cons] at hl
      simp only [VBlock.mergeInto, hl.1, HashMap.extend]
      exact ih _ hl.2
  rw [key m' [] fun p hpm => hfix p (hp.subset hpm), extend_distinct id [] m' (by
    simpa using (hp.map Prod.fst).nodup_iff.mpr hw.1)]
  rfl

example : MapValues.merge (MapValues.unmerge (.merged docMerged)) = .ok (.merged docMerged) :=
  c31_unmerge_merge doc docMerged doc_merges docMerged (.refl _)

end Verif.Props
