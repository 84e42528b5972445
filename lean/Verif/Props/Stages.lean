import Verif.Proofs.MergeUnique
import Verif.Props.OldValues
import Verif.Props.OldEmbed
/-! # C107: legacy configurations in several files -/
set_option autoImplicit false

namespace Verif.Props
open Verif Spec

/-- C107: the relation `MergesMap` is exact about success: an unmerged map has a merged form exactly if `merge` succeeds,
and then what `merge` returns is one. -/
theorem c107_merged_form_exists_iff (m : MapValues) :
    ((∃ n, MergesMap m n) ↔ ∃ n, m.merge = .ok n) ∧ ∀ n, m.merge = .ok n → MergesMap m n :=
  ⟨⟨fun ⟨_, h⟩ => (merges_complete_all.2.1 _ _ h).1, fun ⟨n, h⟩ => ⟨n, c24_map m n h⟩⟩, c24_map m⟩

/-- C107: a merged form, listed in any order (a hash map iterates in any order), is a merged form. -/
theorem c107_any_order (es n n' : List (Key × Value)) (h : MergesMap (.unmerged es) (.merged n)) (hp : n'.Perm n) :
    MergesMap (.unmerged es) (.merged n') :=
  mergesMap_perm h hp ⟨es, rfl⟩

/-- C107: merged forms of the same map have the same keys, each with the same kind of value, which needs no hypothesis about
NaN (for equality see `c107_merged_form_unique`). -/
theorem c107_same_keys (es n n' : List (Key × Value)) (h : MergesMap (.unmerged es) (.merged n))
    (h' : MergesMap (.unmerged es) (.merged n')) (k : Bool × Str) :
    (HashMap.get Key.norm k n).map Value.variant = (HashMap.get Key.norm k n').map Value.variant := by
  have key : ∀ (m : List (Key × Value)), MergesMap (.unmerged es) (.merged m) →
      (HashMap.get Key.norm k m).map Value.variant = (valuesUnder Key.norm k es).head?.map Value.variant := by
    intro m hm
    cases hm with
    | unmerged _ es' _ h1 h2 h3 =>
      have hd := valuesUnder_pairs (R := fun a b => b.variant = a.variant)
        (allPairs_imp (fun a b (hab : EntryDone a b) => ⟨hab.1, hab.2.2.2⟩) (merges_complete_all.2.2 _ _ h1)) k
      have hk := h3 k
      generalize valuesUnder Key.norm k es = vs at hd ⊢
      cases ho : HashMap.get Key.norm k m with
      | none =>
        rw [ho] at hk
        rw [combined_empty hk] at hd
        cases hd
        rfl
      | some v =>
        rw [ho] at hk
        obtain ⟨hne, hv, -⟩ := combined_facts hk
        generalize valuesUnder Key.norm k es' = ws at hd hne hv
        cases hd with
        | nil => exact absurd rfl hne
        | cons a b as bs g1 g2 =>
          have := hv b (by simp)
          simp [← this, g1]
  rw [key n h, key n' h']

/-- C107: several maps, each merged on its own (in any order of iteration), put together and merged again: this succeeds
exactly if merging all the entries at once does. -/
theorem c107_parts_succeed_iff (fs : List (List (Key × Value) × List (Key × Value)))
    (h : ∀ f ∈ fs, MergesMap (.unmerged f.1) (.merged f.2)) :
    (∃ n, MapValues.newMerged (fs.flatMap fun f => f.2) = .ok n) ↔ ∃ n, MapValues.newMerged (fs.flatMap fun f => f.1) = .ok n :=
  (stages h).1

/-- C107: and it gives a merged form of all the entries. -/
theorem c107_parts_result (fs : List (List (Key × Value) × List (Key × Value)))
    (h : ∀ f ∈ fs, MergesMap (.unmerged f.1) (.merged f.2)) (n : MapValues)
    (hn : MapValues.newMerged (fs.flatMap fun f => f.2) = .ok n) : MergesMap (.unmerged (fs.flatMap fun f => f.1)) n :=
  (stages h).2.1 n hn

/-- C107: an error reported in the second stage describes two entries of the parts that clash. -/
theorem c107_parts_error (fs : List (List (Key × Value) × List (Key × Value)))
    (h : ∀ f ∈ fs, MergesMap (.unmerged f.1) (.merged f.2)) (e : ValueErr)
    (he : MapValues.newMerged (fs.flatMap fun f => f.2) = .error e) : Clash (fs.flatMap fun f => f.1) e :=
  (stages h).2.2 e he

/-- C107: what the second stage gives, listed in any order, can be a part in a further stage. -/
theorem c107_stages_go_on (fs : List (List (Key × Value) × List (Key × Value)))
    (h : ∀ f ∈ fs, MergesMap (.unmerged f.1) (.merged f.2)) (n n' : List (Key × Value))
    (hn : MapValues.newMerged (fs.flatMap fun f => f.2) = .ok (.merged n)) (hp : n'.Perm n) :
    MergesMap (.unmerged (fs.flatMap fun f => f.1)) (.merged n') :=
  c107_any_order _ n n' (c107_parts_result fs h _ hn) hp

/-- C107: two merged forms of one map are the same map, compared with `==` (with `F` for floats), as long as every float in
it equals itself (no NaN). -/
theorem c107_merged_form_unique (F : F64 → F64 → Prop) (m n n' : MapValues) (hu : UniqueKeys (.map m))
    (hF : ∀ x, Value.float x ∈ mapLeaves m → F x x) (h : MergesMap m n) (h' : MergesMap m n') : EqMap F n n' :=
  merged_unique_both.2 m hu hF n n' h h'

/-- C107: so merging in two stages and merging all at once give equal maps. -/
theorem c107_same_result (F : F64 → F64 → Prop) (fs : List (List (Key × Value) × List (Key × Value)))
    (h : ∀ f ∈ fs, MergesMap (.unmerged f.1) (.merged f.2)) (hu : ∀ f ∈ fs, UniqueKeys (.map (.unmerged f.1)))
    (hF : ∀ f ∈ fs, ∀ x, Value.float x ∈ mapLeaves (.unmerged f.1) → F x x) (n n' : MapValues)
    (hn : MapValues.newMerged (fs.flatMap fun f => f.2) = .ok n) (hn' : MapValues.newMerged (fs.flatMap fun f => f.1) = .ok n') :
    EqMap F n n' := by
  refine c107_merged_form_unique F (.unmerged (fs.flatMap fun f => f.1)) n n' ?_ ?_ (c107_parts_result fs h n hn) ((c24_new_merged (fs.flatMap fun f => f.1) n').2 hn').1
  · refine uniqueKeys_map (by simp) fun p hp => ?_
    obtain ⟨f, hf, hp⟩ := List.mem_flatMap.mp hp
    exact uniqueKeys_child (hu f hf) (.entry _ p hp)
  · intro x hx
    obtain ⟨p, hp, hx⟩ := mem_mapLeaves.mp hx
    obtain ⟨f, hf, hp⟩ := List.mem_flatMap.mp hp
    exact hF f hf x (mem_mapLeaves.mpr ⟨p, hp, hx⟩)

section
variable (U : CharClass) (P : F64Parse)

theorem fromStr_merging {s : Str} {n : MapValues} (h : fromStr U P s (some .error) = .ok n) :
    ∃ es, fromStr U P s none = .ok (.unmerged es) ∧ MapValues.merge (.unmerged es) = .ok n := by
  by_cases hd : ∃ es, OldDocument U P s es
  · obtain ⟨es, hd⟩ := hd
    refine ⟨es, (c21_from_str_accepts_exactly_the_grammar U P _ _).2 ⟨es, rfl, hd⟩, ?_⟩
    rcases (c21_from_str_merging U P s es hd _).1 h with ⟨m, h1, h2⟩ | ⟨e, -, h2⟩
    · cases h2; exact h1
    · cases h2
  · rcases c21_rejects_everything_else U P s (some .error) hd with h' | ⟨t, h'⟩ | h' <;> rw [h'] at h <;> cases h

theorem fromStr_merge_of {s : Str} {es : List (Key × Value)} (h : fromStr U P s none = .ok (.unmerged es)) :
    (∀ n, fromStr U P s (some .error) = .ok n ↔ MapValues.merge (.unmerged es) = .ok n) ∧
    ∀ e, MapValues.merge (.unmerged es) = .error e → fromStr U P s (some .error) = .error (.value e) := by
  obtain ⟨es', he, hd⟩ := (c21_from_str_accepts_exactly_the_grammar U P _ _).1 h
  cases he
  refine ⟨fun n => ?_, fun e he => (c21_from_str_merging U P s es hd _).2 (.inr ⟨e, he, rfl⟩)⟩
  rw [c21_from_str_merging U P s es hd]
  constructor
  · rintro (⟨m, h1, h2⟩ | ⟨e, -, h2⟩)
    · cases h2; exact h1
    · cases h2
  · exact fun h => .inl ⟨n, h, rfl⟩

/-- C107: several documents, each read with merging (`d.2` lists its map, in any order): put one after the other, on lines
of their own, they are read with merging exactly if the maps can be merged; and merging the maps gives a merged form of
the entries that the long document has. -/
theorem c107_documents (ds : List (Str × List (Key × Value)))
    (h : ∀ d ∈ ds, ∃ m, fromStr U P d.1 (some .error) = .ok (.merged m) ∧ d.2.Perm m) :
    ((∃ n, fromStr U P (ds.flatMap fun d => d.1 ++ ['\n']) (some .error) = .ok n) ↔
      ∃ n, MapValues.newMerged (ds.flatMap fun d => d.2) = .ok n) ∧
    ∃ es, fromStr U P (ds.flatMap fun d => d.1 ++ ['\n']) none = .ok (.unmerged es) ∧
      (∀ n, MapValues.newMerged (ds.flatMap fun d => d.2) = .ok n → MergesMap (.unmerged es) n) ∧
      (∀ n, fromStr U P (ds.flatMap fun d => d.1 ++ ['\n']) (some .error) = .ok n → MergesMap (.unmerged es) n) ∧
      ∀ e, MapValues.newMerged (ds.flatMap fun d => d.2) = .error e → Clash es e ∧
        ∃ e', fromStr U P (ds.flatMap fun d => d.1 ++ ['\n']) (some .error) = .error (.value e') := by
  obtain ⟨ts, h1, h2⟩ : ∃ ts : List (Str × List (Key × Value) × List (Key × Value)),
      ds = ts.map (fun t => (t.1, t.2.2)) ∧ ∀ t ∈ ts, fromStr U P t.1 none = .ok (.unmerged t.2.1) ∧
        MergesMap (.unmerged t.2.1) (.merged t.2.2) := by
    induction ds with
    | nil => exact ⟨[], rfl, by simp⟩
    | cons d ds ih =>
      rw [List.forall_mem_cons] at h
      obtain ⟨ts, rfl, g2⟩ := ih h.2
      obtain ⟨m, g3, g4⟩ := h.1
      obtain ⟨es, g5, g6⟩ := fromStr_merging U P g3
      exact ⟨(d.1, es, d.2) :: ts, rfl, List.forall_mem_cons.mpr ⟨⟨g5, mergesMap_perm (c24_map _ _ g6) g4 ⟨es, rfl⟩⟩, g2⟩⟩
  subst h1
  have hdoc := c81_legacy_lines U P (ts.map fun t => (t.1, t.2.1)) (by
    intro d hd
    obtain ⟨t, ht, rfl⟩ := List.mem_map.mp hd
    exact (h2 t ht).1)
  have hst := stages (fs := ts.map fun t => (t.2.1, t.2.2)) (by
    intro f hf
    obtain ⟨t, ht, rfl⟩ := List.mem_map.mp hf
    exact (h2 t ht).2)
  simp only [List.flatMap_map] at hdoc hst ⊢
  obtain ⟨s1, s2, s3⟩ := hst
  have hm := fromStr_merge_of U P hdoc
  refine ⟨?_, _, hdoc, s2, ?_, ?_⟩
  · simp only [hm.1]
    exact s1.symm
  · intro n hn
    exact c24_map _ _ ((hm.1 n).mp hn)
  · intro e he
    refine ⟨s3 e he, ?_⟩
    cases hw : MapValues.merge (.unmerged (ts.flatMap fun t => t.2.1)) with
    | ok n =>
      obtain ⟨n', hn'⟩ := s1.mpr ⟨n, hw⟩
      rw [show MapValues.merge (.unmerged (ts.flatMap fun t => t.2.2)) = .error e from he] at hn'
      cases hn'
    | error e' => exact ⟨e', hm.2 e' hw⟩

/-- C107: and if no float is a NaN, merging the maps and reading the long document with merging give equal maps (`F` is the
equality of floats). -/
theorem c107_documents_equal (F : F64 → F64 → Prop) (ds : List (Str × List (Key × Value)))
    (h : ∀ d ∈ ds, ∃ m, fromStr U P d.1 (some .error) = .ok (.merged m) ∧ d.2.Perm m) (n n' : MapValues)
    (hn : MapValues.newMerged (ds.flatMap fun d => d.2) = .ok n)
    (hn' : fromStr U P (ds.flatMap fun d => d.1 ++ ['\n']) (some .error) = .ok n')
    (hF : ∀ m, fromStr U P (ds.flatMap fun d => d.1 ++ ['\n']) none = .ok m → ∀ x, Value.float x ∈ mapLeaves m → F x x) :
    EqMap F n n' := by
  obtain ⟨-, es, h1, h2, h3, -⟩ := c107_documents U P ds h
  exact c107_merged_form_unique F (.unmerged es) n n' (c19_from_str_valid U P _ none _ h1) (hF _ h1) (h2 n hn) (h3 n' hn')

end

/-! ## examples -/

/-- Three files: blocks of one type with labels of their own and shared ones, and an object key in two of them. -/
def stage1 : Str := "r \"a\" {\nn = 1\n}\nt = {\nk = 1\n}".toList
/-- the second file -/
def stage2 : Str := "r \"b\" {\nn = 2\n}\nt = {\nl = 2\n}".toList
/-- the third file -/
def stage3 : Str := "r \"a\" {\nn = 3\n}\nx = 4".toList
/-- The maps of the three files. -/
def stageMap1 : List (Key × Value) :=
  [(idKey "r", .block (.merged [(["a".toList], .merged [(idKey "n", .integer 1)])])), (idKey "t", .object [.merged [(idKey "k", .integer 1)]])]
/-- the map of the second file -/
def stageMap2 : List (Key × Value) :=
  [(idKey "r", .block (.merged [(["b".toList], .merged [(idKey "n", .integer 2)])])), (idKey "t", .object [.merged [(idKey "l", .integer 2)]])]
/-- the map of the third file -/
def stageMap3 : List (Key × Value) :=
  [(idKey "r", .block (.merged [(["a".toList], .merged [(idKey "n", .integer 3)])])), (idKey "x", .integer 4)]

theorem stage_plain1 : fromStr asciiClass zeroFloats stage1 none = .ok (.unmerged
    [(idKey "r", .block (.unmerged [(["a".toList], .unmerged [(idKey "n", .integer 1)])])), (idKey "t", .object [.unmerged [(idKey "k", .integer 1)]])]) := by
  decide +kernel
theorem stage_read1 : fromStr asciiClass zeroFloats stage1 (some .error) = .ok (.merged stageMap1) :=
  ((fromStr_merge_of asciiClass zeroFloats stage_plain1).1 _).2 (by rfl)
theorem stage_plain2 : fromStr asciiClass zeroFloats stage2 none = .ok (.unmerged
    [(idKey "r", .block (.unmerged [(["b".toList], .unmerged [(idKey "n", .integer 2)])])), (idKey "t", .object [.unmerged [(idKey "l", .integer 2)]])]) := by
  decide +kernel
theorem stage_read2 : fromStr asciiClass zeroFloats stage2 (some .error) = .ok (.merged stageMap2) :=
  ((fromStr_merge_of asciiClass zeroFloats stage_plain2).1 _).2 (by rfl)
theorem stage_plain3 : fromStr asciiClass zeroFloats stage3 none = .ok (.unmerged
    [(idKey "r", .block (.unmerged [(["a".toList], .unmerged [(idKey "n", .integer 3)])])), (idKey "x", .integer 4)]) := by
  decide +kernel
theorem stage_read3 : fromStr asciiClass zeroFloats stage3 (some .error) = .ok (.merged stageMap3) :=
  ((fromStr_merge_of asciiClass zeroFloats stage_plain3).1 _).2 (by rfl)

/-- The three files with their maps; the last one listed the other way round. -/
def stageFiles : List (Str × List (Key × Value)) := [(stage1, stageMap1), (stage2, stageMap2), (stage3, stageMap3.reverse)]

/-- The hypothesis of `c107_documents` for the three files. -/
theorem stage_docs : ∀ d ∈ stageFiles, ∃ m, fromStr asciiClass zeroFloats d.1 (some .error) = .ok (.merged m) ∧ d.2.Perm m := by
  intro d hd
  simp only [stageFiles, List.mem_cons, List.not_mem_nil, or_false] at hd
  rcases hd with rfl | rfl | rfl
  · exact ⟨_, stage_read1, .refl _⟩
  · exact ⟨_, stage_read2, .refl _⟩
  · exact ⟨_, stage_read3, List.reverse_perm _⟩

/-- What merging the three maps gives: block `a` comes from the last file, the two objects are listed one after the other. -/
theorem stage_result : MapValues.newMerged (stageFiles.flatMap fun d => d.2) = .ok (.merged
    [(idKey "r", .block (.merged [(["a".toList], .merged [(idKey "n", .integer 3)]), (["b".toList], .merged [(idKey "n", .integer 2)])])),
     (idKey "t", .object [.merged [(idKey "k", .integer 1)], .merged [(idKey "l", .integer 2)]]), (idKey "x", .integer 4)]) := by
  rfl

example : ∃ n, fromStr asciiClass zeroFloats (stageFiles.flatMap fun d => d.1 ++ ['\n']) (some .error) = .ok n :=
  (c107_documents asciiClass zeroFloats stageFiles stage_docs).1.mpr ⟨_, stage_result⟩

example : ∃ n n', MapValues.newMerged (stageFiles.flatMap fun d => d.2) = .ok n ∧
    fromStr asciiClass zeroFloats (stageFiles.flatMap fun d => d.1 ++ ['\n']) (some .error) = .ok n' ∧ EqMap Eq n n' := by
  obtain ⟨n', hn'⟩ := (c107_documents asciiClass zeroFloats stageFiles stage_docs).1.mpr ⟨_, stage_result⟩
  exact ⟨_, n', stage_result, hn', c107_documents_equal asciiClass zeroFloats Eq stageFiles stage_docs _ _ stage_result hn' fun _ _ _ _ => rfl⟩

/-- Two parts that cannot be merged: a key with a number in both. -/
example : ∃ e, MapValues.newMerged ([([(idKey "x", Value.integer 1)], [(idKey "x", Value.integer 1)]),
      ([(idKey "x", Value.integer 2)], [(idKey "x", Value.integer 2)])].flatMap fun f => f.2) = .error e ∧
    Clash [(idKey "x", Value.integer 1), (idKey "x", Value.integer 2)] e := by
  have h : ∀ i : Int, MergesMap (.unmerged [(idKey "x", Value.integer i)]) (.merged [(idKey "x", Value.integer i)]) :=
    fun i => c24_map _ _ rfl
  refine ⟨.illegalMultipleEntries "x".toList .integer, rfl, ?_⟩
  exact c107_parts_error [([(idKey "x", Value.integer 1)], [(idKey "x", Value.integer 1)]),
      ([(idKey "x", Value.integer 2)], [(idKey "x", Value.integer 2)])] (by
    intro f hf
    simp only [List.mem_cons, List.not_mem_nil, or_false] at hf
    rcases hf with rfl | rfl
    · exact h 1
    · exact h 2) _ rfl

end Verif.Props
