import Verif.Spec.Grown
import Verif.Props.Stages
import Verif.Props.Truncate
/-! # C108: merged legacy configurations that were cut off -/
set_option autoImplicit false

namespace Verif
open Spec Props

/-- What a key carries only grows when further entries are added. -/
theorem addAll_grown {mf m es : List (Key × Value)} (hb : ∀ p ∈ mf, BlockMerged p.2) (h : addAll mf es = .ok m) (k : Bool × Str)
    (v' : Value) (hg : HashMap.get Key.norm k mf = some v') : ∃ v, HashMap.get Key.norm k m = some v ∧ Grown v' v := by
  obtain ⟨hc, hs⟩ := addAll_exists.mp ⟨m, h⟩
  have hget := addAll_get h k
  rw [hg] at hget
  have hall : ∀ w ∈ valuesUnder Key.norm k es, MayShare v' w := by
    intro w hw
    obtain ⟨p, hp, hk, rfl⟩ := mem_valuesUnder.mp hw
    exact hs p hp v' (hk ▸ hg)
  generalize valuesUnder Key.norm k es = vs at hget hall
  cases vs with
  | nil => exact ⟨v', hget, .same v'⟩
  | cons w vs =>
    have hw := (mayShare_iff _ _).mp (hall w (by simp))
    rcases hw with ⟨h1, h2⟩ | ⟨h1, h2⟩
    · obtain ⟨ls, e⟩ := all_objects (vs := w :: vs) fun x hx => by
        rcases (mayShare_iff _ _).mp (hall x hx) with ⟨-, h⟩ | ⟨h, -⟩
        · exact h
        · rw [h1] at h; cases h
      cases v' <;> simp [Value.variant] at h1
      rename_i l
      rw [e, combinedAll_objects] at hget
      exact ⟨_, hget, .objects l _⟩
    · obtain ⟨bs, e⟩ := all_blocks (vs := w :: vs) fun x hx => by
        rcases (mayShare_iff _ _).mp (hall x hx) with ⟨h, -⟩ | ⟨-, h⟩
        · rw [h1] at h; cases h
        · exact h
      cases v' <;> simp [Value.variant] at h1
      rename_i b
      rw [hashMap_get_values] at hg
      obtain ⟨p, hp, -, hpv⟩ := mem_valuesUnder.mp (List.mem_of_head? hg)
      obtain ⟨m0, e0, hn⟩ := hb p hp b hpv
      subst e0
      rw [e, combinedAll_blocks] at hget
      exact ⟨_, hget, .blocks m0 _ _ (lastWins_extend m0 _ hn)⟩

theorem allPairs_glue {α β : Type} {R : α → β → Prop} {a c : List α} {b d : List β} (h : AllPairs R a b) (g : AllPairs R c d) :
    AllPairs R (a ++ c) (b ++ d) := by
  induction h with
  | nil => exact g
  | cons x y as bs h1 _ ih => exact .cons _ _ _ _ h1 ih

theorem addAll_append {m : HashMap Key Value} {a b : List (Key × Value)} {n : HashMap Key Value} :
    addAll m (a ++ b) = .ok n ↔ ∃ m', addAll m a = .ok m' ∧ addAll m' b = .ok n := by
  induction a generalizing m with
  | nil => simp [addAll]
  | cons p a ih =>
    obtain ⟨k, v⟩ := p
    simp only [List.cons_append, addAll]
    cases addEntry m k v with
    | error e => simp
    | ok m1 => exact ih

theorem allPairs_split {α β : Type} {R : α → β → Prop} {a b : List α} {l : List β} (h : AllPairs R (a ++ b) l) :
    ∃ c d, l = c ++ d ∧ AllPairs R a c ∧ AllPairs R b d := by
  induction a generalizing l with
  | nil => exact ⟨[], l, rfl, .nil, h⟩
  | cons x a ih =>
    cases h with
    | cons _ y _ l h1 h2 =>
      obtain ⟨c, d, rfl, h3, h4⟩ := ih h2
      exact ⟨y :: c, d, rfl, .cons _ _ _ _ h1 h3, h4⟩

/-- Merging entries goes on from what merging the first ones gave. -/
theorem merge_append {a b m : List (Key × Value)} (h : MapValues.merge (.unmerged (a ++ b)) = .ok (.merged m)) :
    ∃ m' b', MapValues.merge (.unmerged a) = .ok (.merged m') ∧ AllPairs (fun x y => x.1 = y.1 ∧ x.2.merge = .ok y.2) b b' ∧
      addAll m' b' = .ok m ∧ ∀ p ∈ m', BlockMerged p.2 := by
  simp only [MapValues.merge, Value.mergeMap] at h ⊢
  obtain ⟨x, hx, e⟩ := except_map_eq h
  cases e
  obtain ⟨es', h1, h2⟩ := mergeEntries_ok.mp hx
  obtain ⟨c, d, rfl, h3, h4⟩ := allPairs_split h1
  obtain ⟨m', h5, h6⟩ := addAll_append.mp h2
  refine ⟨m', d, by rw [mergeEntries_ok.mpr ⟨c, h3, h5⟩]; rfl, h4, h6, ?_⟩
  refine addAll_forall (F := BlockMerged) (fun old v h1 h2 hs => combined_blockMerged hs h1) (by simp) ?_ h5
  intro p hp
  obtain ⟨q, -, -, hq⟩ := allPairs_right h3 p hp
  exact merge_blockMerged hq

theorem numberValue_scalar {P : F64Parse} {t : Str} {v : Value} (h : NumberValue P t v) :
    v.merge = .ok v ∧ v.variant ≠ .object ∧ v.variant ≠ .block := by
  cases h <;> exact ⟨rfl, by simp [Value.variant], by simp [Value.variant]⟩

theorem no_share_number {a v : Value} (hv : v.variant ≠ .object ∧ v.variant ≠ .block) : ¬ MayShare a v ∧ ¬ MayShare v a := by
  simp only [mayShare_iff]
  exact ⟨by rintro (⟨-, h⟩ | ⟨-, h⟩) <;> simp_all, by rintro (⟨h, -⟩ | ⟨h, -⟩) <;> simp_all⟩

/-- One entry with a number instead of another number, at the end instead of in the middle. -/
theorem merge_number_cut {f rest m : List (Key × Value)} {k : Key} {v v' : Value}
    (hv : v.merge = .ok v ∧ v.variant ≠ .object ∧ v.variant ≠ .block) (hv' : v'.merge = .ok v' ∧ v'.variant ≠ .object ∧ v'.variant ≠ .block)
    (h : MapValues.merge (.unmerged (f ++ (k, v) :: rest)) = .ok (.merged m)) :
    ∃ m', MapValues.merge (.unmerged (f ++ [(k, v')])) = .ok (.merged m') ∧ HashMap.get Key.norm k.norm m' = some v' ∧
      HashMap.get Key.norm k.norm m = some v ∧
      ∀ q, q ≠ k.norm → ∀ x', HashMap.get Key.norm q m' = some x' → ∃ x, HashMap.get Key.norm q m = some x ∧ Grown x' x := by
  obtain ⟨mf, b', h1, h2, h3, h4⟩ := merge_append h
  cases h2 with
  | cons _ y _ rest' g1 g2 =>
    obtain ⟨k', w⟩ := y
    obtain ⟨e, g1⟩ := g1
    simp only at e g1
    subst e
    rw [hv.1] at g1
    cases g1
    obtain ⟨hc, hs⟩ := addAll_exists.mp ⟨m, h3⟩
    have hnone : HashMap.get Key.norm k.norm mf = none := by
      cases ho : HashMap.get Key.norm k.norm mf with
      | none => rfl
      | some old => exact absurd (hs (k, v) (by simp) old ho) (no_share_number hv.2).1
    obtain ⟨m', hm'⟩ := (addAll_exists (m := mf) (es := [(k, v')])).mpr ⟨by simp [NoClash], by
      intro p hp old ho
      simp only [List.mem_singleton] at hp
      subst hp
      rw [hnone] at ho
      cases ho⟩
    have hmerge : MapValues.merge (.unmerged (f ++ [(k, v')])) = .ok (.merged m') := by
      simp only [MapValues.merge, Value.mergeMap] at h1 ⊢
      obtain ⟨x, hx, e⟩ := except_map_eq h1
      cases e
      obtain ⟨f', q1, q2⟩ := mergeEntries_ok.mp hx
      rw [mergeEntries_ok.mpr ⟨f' ++ [(k, v')], allPairs_glue q1 (.cons _ _ _ _ ⟨rfl, hv'.1⟩ .nil), addAll_append.mpr ⟨_, q2, hm'⟩⟩]
      rfl
    refine ⟨m', hmerge, ?_, ?_, ?_⟩
    · rw [addAll_get hm', hnone]
      simp [valuesUnder, combinedAll, combined]
    · rw [addAll_get h3, hnone]
      have : valuesUnder Key.norm k.norm ((k, v) :: rest') = [v] := by
        have hp := valuesUnder_pairwise hc k.norm
        simp only [valuesUnder, if_true, List.pairwise_cons] at hp ⊢
        cases hvs : valuesUnder Key.norm k.norm rest' with
        | nil => rfl
        | cons w ws => exact absurd (hp.1 w (by simp [hvs])) (no_share_number hv.2).2
      rw [this]
      simp [combinedAll, combined]
    · intro q hq x' hx'
      rw [addAll_get hm'] at hx'
      have : valuesUnder Key.norm q [(k, v')] = [] := by simp [valuesUnder, Ne.symm hq]
      rw [this] at hx'
      exact addAll_grown h4 h3 q x' hx'

end Verif

namespace Verif.Props
open Verif Spec

variable (U : CharClass) (P : F64Parse)

/-- C108: if the whole document is read with merging, then whatever is left of it and can be read at all can be read with
merging. -/
theorem c108_still_merges (p r : Str) (m : MapValues) (h : fromStr U P (p ++ r) (some .error) = .ok m)
    (es' : List (Key × Value)) (h' : fromStr U P p none = .ok (.unmerged es')) :
    ∃ m', fromStr U P p (some .error) = .ok m' := by
  obtain ⟨es, he, hm⟩ := fromStr_merging U P h
  obtain ⟨n, rfl⟩ := mergeMap_merged hm
  cases c92_legacy_cut_off U P p r es' es h' he with
  | between _ rest =>
    obtain ⟨m', -, h1, -⟩ := merge_append hm
    exact ⟨_, ((fromStr_merge_of U P h').1 _).mpr h1⟩
  | number f rest k v' v t q n' n h1 h2 h3 h4 h5 h6 h7 =>
    obtain ⟨m', g1, -⟩ := merge_number_cut (numberValue_scalar h7) (numberValue_scalar h6) hm
    exact ⟨_, ((fromStr_merge_of U P h').1 _).mpr g1⟩

/-- C108: what is read with merging from a document that was cut off: every key has, in the whole document, the same value,
or a list of objects that goes on, or blocks to which others were added; the only exception is one key, whose number was
cut within its literal. -/
theorem c108_cut_off (p r : Str) (m' m : List (Key × Value)) (h' : fromStr U P p (some .error) = .ok (.merged m'))
    (h : fromStr U P (p ++ r) (some .error) = .ok (.merged m)) :
    (∀ k v', HashMap.get Key.norm k m' = some v' → ∃ v, HashMap.get Key.norm k m = some v ∧ Grown v' v) ∨
    ∃ key x' x, CutLiteral P p r x' x ∧ HashMap.get Key.norm key m' = some x' ∧ HashMap.get Key.norm key m = some x ∧
      ∀ k, k ≠ key → ∀ v', HashMap.get Key.norm k m' = some v' → ∃ v, HashMap.get Key.norm k m = some v ∧ Grown v' v := by
  obtain ⟨es', he', hm'⟩ := fromStr_merging U P h'
  obtain ⟨es, he, hm⟩ := fromStr_merging U P h
  cases c92_legacy_cut_off U P p r es' es he' he with
  | between _ rest =>
    obtain ⟨m1, b', h1, -, h3, h4⟩ := merge_append hm
    rw [h1] at hm'
    cases hm'
    exact .inl fun k v' hk => addAll_grown h4 h3 k v' hk
  | number f rest k v' v t q n' n h1 h2 h3 h4 h5 h6 h7 =>
    obtain ⟨m1, g1, g2, g3, g4⟩ := merge_number_cut (numberValue_scalar h7) (numberValue_scalar h6) hm
    rw [g1] at hm'
    cases hm'
    exact .inr ⟨k.norm, v', v, .mk v' v t q n' n h1 h2 h3 h4 h5 h6 h7, g2, g3, g4⟩

/-- C108: if the text was not cut within a number, there is no exception. -/
theorem c108_between_tokens (p r : Str) (m' m : List (Key × Value)) (h' : fromStr U P p (some .error) = .ok (.merged m'))
    (h : fromStr U P (p ++ r) (some .error) = .ok (.merged m))
    (hcut : ¬ Head NumberGoesOn r ∨ ∃ p0 c, p = p0 ++ [c] ∧ ¬ NumChar c) (k : Bool × Str) (v' : Value)
    (hk : HashMap.get Key.norm k m' = some v') : ∃ v, HashMap.get Key.norm k m = some v ∧ Grown v' v := by
  obtain ⟨es', he', hm'⟩ := fromStr_merging U P h'
  obtain ⟨es, he, hm⟩ := fromStr_merging U P h
  obtain ⟨rest, rfl⟩ := c92_legacy_between_tokens U P p r es' es he' he hcut
  obtain ⟨m1, b', h1, -, h3, h4⟩ := merge_append hm
  rw [h1] at hm'
  cases hm'
  exact addAll_grown h4 h3 k v' hk

/-- C108: then every number, string, boolean, null or list that is read is the one of the whole document. -/
theorem c108_plain_values (p r : Str) (m' m : List (Key × Value)) (h' : fromStr U P p (some .error) = .ok (.merged m'))
    (h : fromStr U P (p ++ r) (some .error) = .ok (.merged m))
    (hcut : ¬ Head NumberGoesOn r ∨ ∃ p0 c, p = p0 ++ [c] ∧ ¬ NumChar c) (k : Bool × Str) (v' : Value)
    (hk : HashMap.get Key.norm k m' = some v') (h1 : v'.variant ≠ .object) (h2 : v'.variant ≠ .block) :
    HashMap.get Key.norm k m = some v' := by
  obtain ⟨v, hv, hg⟩ := c108_between_tokens U P p r m' m h' h hcut k v' hk
  cases hg with
  | same => exact hv
  | objects => exact absurd rfl h1
  | blocks => exact absurd rfl h2

/-- C108: and for blocks, every label path that is read is in the whole document, with the same body unless the whole
document has a later block with these labels. -/
theorem c108_blocks (p r : Str) (m' m : List (Key × Value)) (h' : fromStr U P p (some .error) = .ok (.merged m'))
    (h : fromStr U P (p ++ r) (some .error) = .ok (.merged m))
    (hcut : ¬ Head NumberGoesOn r ∨ ∃ p0 c, p = p0 ++ [c] ∧ ¬ NumChar c) (k : Bool × Str) (b : VBlock)
    (hk : HashMap.get Key.norm k m' = some (.block b)) :
    ∃ x n more, b = .merged x ∧ HashMap.get Key.norm k m = some (.block (.merged n)) ∧ LastWins (x ++ more) n ∧
      ∀ ls, ls ∈ x.map Prod.fst → ls ∈ n.map Prod.fst := by
  obtain ⟨v, hv, hg⟩ := c108_between_tokens U P p r m' m h' h hcut k _ hk
  have hlabels : ∀ {x more n : List (List Str × MapValues)}, LastWins (x ++ more) n → ∀ ls, ls ∈ x.map Prod.fst → ls ∈ n.map Prod.fst := by
    intro x more n hl ls hls
    obtain ⟨q, hq, rfl⟩ := List.mem_map.mp hls
    have h1 := hl.2 q.1
    have h2 : q.2 ∈ valuesUnder id q.1 (x ++ more) := mem_valuesUnder.mpr ⟨q, by simp [hq], rfl, rfl⟩
    cases hgl : (valuesUnder id q.1 (x ++ more)).getLast? with
    | none => rw [List.getLast?_eq_none_iff.mp hgl] at h2; cases h2
    | some w =>
      rw [hgl, hashMap_get_values] at h1
      obtain ⟨y, hy, hyk, -⟩ := mem_valuesUnder.mp (List.mem_of_head? h1)
      exact List.mem_map.mpr ⟨y, hy, hyk⟩
  cases hg with
  | same =>
    obtain ⟨es', he', hm'⟩ := fromStr_merging U P h'
    have hin : Value.block b ∈ valuesUnder Key.norm k m' := by
      rw [hashMap_get_values] at hk
      exact List.mem_of_head? hk
    obtain ⟨q, hq, -, hqv⟩ := mem_valuesUnder.mp hin
    obtain ⟨m1, b', g1, -, g2, g3⟩ := merge_append (b := []) (a := es') (by simpa using hm')
    rw [g1] at hm'
    cases hm'
    obtain ⟨x, rfl, hn⟩ := g3 q hq b hqv
    have := lastWins_self hn
    exact ⟨x, x, [], rfl, hv, by simpa using this, fun _ h => h⟩
  | blocks x more n hl => exact ⟨x, n, more, rfl, hv, hl, hlabels hl⟩

/-! ## examples -/

/-- What is left of `stage1 ++ "\n" ++ stage2 ++ "\n"`, cut in the second block. -/
example : ∀ k v', HashMap.get Key.norm k stageMap1 = some v' → ∃ n v, fromStr asciiClass zeroFloats (stage1 ++ ('\n' :: stage2 ++ ['\n'])) (some .error) = .ok (.merged n) ∧
    HashMap.get Key.norm k n = some v ∧ Grown v' v := by
  intro k v' hk
  obtain ⟨n, hn⟩ := (c107_documents asciiClass zeroFloats [(stage1, stageMap1), (stage2, stageMap2)] (by
    intro d hd
    exact stage_docs d (by simp only [stageFiles, List.mem_cons, List.not_mem_nil, or_false] at hd ⊢; rcases hd with rfl | rfl <;> simp))).1.mpr ⟨_, rfl⟩
  obtain ⟨m, rfl⟩ : ∃ m, n = .merged m := by
    obtain ⟨es, -, hm⟩ := fromStr_merging _ _ hn
    exact mergeMap_merged hm
  have e : ([(stage1, stageMap1), (stage2, stageMap2)].flatMap fun d => d.1 ++ ['\n']) = stage1 ++ ('\n' :: stage2 ++ ['\n']) := by
    simp
  rw [e] at hn
  obtain ⟨v, h1, h2⟩ := c108_between_tokens asciiClass zeroFloats stage1 _ stageMap1 m stage_read1 hn
    (.inl (by rintro ⟨c, t, e, hc⟩; cases e; rcases hc with hc | hc | hc | hc <;> revert hc <;> decide)) k v' hk
  exact ⟨m, v, hn, h1, h2⟩

/-- A number that was cut: `x = 12` is left of `x = 123`; the rest is kept. -/
theorem cut_number_left : fromStr asciiClass zeroFloats "a = {\nk = 1\n}\nx = 12".toList none =
    .ok (.unmerged [(idKey "a", .object [.unmerged [(idKey "k", .integer 1)]]), (idKey "x", .integer 12)]) := by decide +kernel
theorem cut_number_whole : fromStr asciiClass zeroFloats ("a = {\nk = 1\n}\nx = 12".toList ++ "3\na = {\nl = 1\n}\n".toList) none =
    .ok (.unmerged [(idKey "a", .object [.unmerged [(idKey "k", .integer 1)]]), (idKey "x", .integer 123),
      (idKey "a", .object [.unmerged [(idKey "l", .integer 1)]])]) := by decide +kernel
theorem cut_number_merged : fromStr asciiClass zeroFloats ("a = {\nk = 1\n}\nx = 12".toList ++ "3\na = {\nl = 1\n}\n".toList) (some .error) =
    .ok (.merged [(idKey "a", .object [.merged [(idKey "k", .integer 1)], .merged [(idKey "l", .integer 1)]]), (idKey "x", .integer 123)]) :=
  ((fromStr_merge_of asciiClass zeroFloats cut_number_whole).1 _).2 (by rfl)
theorem cut_number_left_merged : fromStr asciiClass zeroFloats "a = {\nk = 1\n}\nx = 12".toList (some .error) =
    .ok (.merged [(idKey "a", .object [.merged [(idKey "k", .integer 1)]]), (idKey "x", .integer 12)]) :=
  ((fromStr_merge_of asciiClass zeroFloats cut_number_left).1 _).2 (by rfl)

example : ∃ m', fromStr asciiClass zeroFloats "a = {\nk = 1\n}\nx = 12".toList (some .error) = .ok m' :=
  c108_still_merges asciiClass zeroFloats _ _ _ cut_number_merged _ cut_number_left

/-- Here the exception of `c108_cut_off` is what happens: `x` is 12 in one map and 123 in the other. -/
example : ∃ key x' x, CutLiteral zeroFloats "a = {\nk = 1\n}\nx = 12".toList "3\na = {\nl = 1\n}\n".toList x' x ∧ key = (idKey "x").norm := by
  rcases c108_cut_off asciiClass zeroFloats _ _ _ _ cut_number_left_merged cut_number_merged with h | ⟨key, x', x, h1, h2, h3, h4⟩
  · obtain ⟨v, hv, hg⟩ := h (idKey "x").norm (.integer 12) (by decide +kernel)
    have : v = .integer 123 := by
      have e : HashMap.get Key.norm (idKey "x").norm [(idKey "a", .object [.merged [(idKey "k", .integer 1)], .merged [(idKey "l", .integer 1)]]),
        (idKey "x", Value.integer 123)] = some (.integer 123) := by decide +kernel
      rw [e] at hv
      exact (Option.some.inj hv).symm
    subst this
    cases hg
  · refine ⟨key, x', x, h1, ?_⟩
    refine Classical.byContradiction fun hk => ?_
    obtain ⟨v, hv, hg⟩ := h4 (idKey "x").norm (Ne.symm hk) (.integer 12) (by decide +kernel)
    have : v = .integer 123 := by
      have e : HashMap.get Key.norm (idKey "x").norm [(idKey "a", .object [.merged [(idKey "k", .integer 1)], .merged [(idKey "l", .integer 1)]]),
        (idKey "x", Value.integer 123)] = some (.integer 123) := by decide +kernel
      rw [e] at hv
      exact (Option.some.inj hv).symm
    subst this
    cases hg

/-- Blocks and a list, cut after the list. -/
theorem cut_blocks_whole : fromStr asciiClass zeroFloats ("r \"a\" {\nn = 1\n}\nl = [1, 2]\n".toList ++ "r \"b\" {\n}\n".toList) none =
    .ok (.unmerged [(idKey "r", .block (.unmerged [(["a".toList], .unmerged [(idKey "n", .integer 1)])])), (idKey "l", .list [.integer 1, .integer 2]),
      (idKey "r", .block (.unmerged [(["b".toList], .unmerged [])]))]) := by decide +kernel
theorem cut_blocks_left : fromStr asciiClass zeroFloats "r \"a\" {\nn = 1\n}\nl = [1, 2]\n".toList none =
    .ok (.unmerged [(idKey "r", .block (.unmerged [(["a".toList], .unmerged [(idKey "n", .integer 1)])])), (idKey "l", .list [.integer 1, .integer 2])]) := by
  decide +kernel
theorem cut_blocks_merged : fromStr asciiClass zeroFloats ("r \"a\" {\nn = 1\n}\nl = [1, 2]\n".toList ++ "r \"b\" {\n}\n".toList) (some .error) =
    .ok (.merged [(idKey "r", .block (.merged [(["a".toList], .merged [(idKey "n", .integer 1)]), (["b".toList], .merged [])])),
      (idKey "l", .list [.integer 1, .integer 2])]) :=
  ((fromStr_merge_of asciiClass zeroFloats cut_blocks_whole).1 _).2 (by rfl)
theorem cut_blocks_left_merged : fromStr asciiClass zeroFloats "r \"a\" {\nn = 1\n}\nl = [1, 2]\n".toList (some .error) =
    .ok (.merged [(idKey "r", .block (.merged [(["a".toList], .merged [(idKey "n", .integer 1)])])), (idKey "l", .list [.integer 1, .integer 2])]) :=
  ((fromStr_merge_of asciiClass zeroFloats cut_blocks_left).1 _).2 (by rfl)
theorem cut_blocks_at : ¬ Head NumberGoesOn "r \"b\" {\n}\n".toList := by
  rintro ⟨c, t, e, hc⟩; cases e; rcases hc with hc | hc | hc | hc <;> revert hc <;> decide

example : HashMap.get Key.norm (idKey "l").norm [(idKey "r", .block (.merged [(["a".toList], .merged [(idKey "n", .integer 1)]), (["b".toList], .merged [])])),
      (idKey "l", .list [.integer 1, .integer 2])] = some (Value.list [.integer 1, .integer 2]) :=
  c108_plain_values asciiClass zeroFloats _ _ _ _ cut_blocks_left_merged cut_blocks_merged (.inl cut_blocks_at) (idKey "l").norm _
    (by decide +kernel) (by decide) (by decide)

example : ∃ x n more : List (List Str × MapValues), HashMap.get Key.norm (idKey "r").norm [(idKey "r", Value.block (.merged [(["a".toList], .merged [(idKey "n", .integer 1)]), (["b".toList], .merged [])])),
      (idKey "l", Value.list [.integer 1, .integer 2])] = some (Value.block (.merged n)) ∧ LastWins (x ++ more) n ∧ ["a".toList] ∈ n.map Prod.fst := by
  obtain ⟨x, n, more, e, h1, h2, h3⟩ := c108_blocks asciiClass zeroFloats _ _ _ _ cut_blocks_left_merged cut_blocks_merged (.inl cut_blocks_at)
    (idKey "r").norm (.merged [(["a".toList], .merged [(idKey "n", .integer 1)])]) (by decide +kernel)
  cases e
  exact ⟨_, n, more, h1, h2, h3 _ (by simp)⟩

end Verif.Props
