import Verif.Spec.Files
import Verif.Props.CutConfig
import Verif.Props.Document
/-! # C106: configurations in several files -/
set_option autoImplicit false

namespace Verif.Props
open Verif Spec

theorem lastRun_before {t : Str} {as bs run : List Block} (h : ∀ q ∈ bs, q.type.str ≠ t) : LastRun t (as ++ bs) run ↔ LastRun t as run := by
  induction bs generalizing as with
  | nil => rw [List.append_nil]
  | cons q bs ih =>
    rw [show as ++ q :: bs = (as ++ [q]) ++ bs by simp, ih fun x hx => h x (by simp [hx]), lastRun_snoc (h q (by simp))]

theorem lastRun_after {t : Str} {as bs run : List Block} (h : ∀ q, as.getLast? = some q → q.type.str ≠ t) (hb : ∃ q ∈ bs, q.type.str = t) :
    LastRun t (as ++ bs) run ↔ LastRun t bs run := by
  obtain ⟨r, hr⟩ := lastRun_of_mem hb
  have key : LastRun t (as ++ bs) r := by
    obtain ⟨pre, post, rfl, h1, h2, h3, h4⟩ := hr
    refine ⟨as ++ pre, post, by simp, h1, h2, h3, fun b hb => ?_⟩
    cases hp : pre.getLast? with
    | none =>
      rw [List.getLast?_eq_none_iff] at hp
      subst hp
      rw [List.append_nil] at hb
      exact h b hb
    | some x =>
      rw [List.getLast?_append, hp] at hb
      simp only [Option.some_or, Option.some.injEq] at hb
      subst hb
      exact h4 _ hp
  constructor
  · intro h'
    rw [lastRun_unique h' key]; exact hr
  · intro h'
    rw [lastRun_unique h' hr]; exact key

theorem block_named {b : Body} {q : Block} (h : q ∈ blocks b) : ∃ x ∈ b, elementKey x = q.type.str := by
  rw [blocks, List.mem_filterMap] at h
  obtain ⟨el, hel, he⟩ := h
  cases el with
  | «attribute» => cases he
  | block t ls x => cases he; exact ⟨_, hel, rfl⟩

theorem attr_named {b : Body} {p : CowStr × Expr} (h : p ∈ attrs b) : ∃ x ∈ b, elementKey x = p.1.str := by
  rw [attrs, List.mem_filterMap] at h
  obtain ⟨el, hel, he⟩ := h
  cases el with
  | block => cases he
  | «attribute» k e => cases he; exact ⟨_, hel, rfl⟩

theorem attrs_two (a b : Body) : attrs (a ++ b) = attrs a ++ attrs b := by simp [attrs, List.filterMap_append]
theorem blocks_two (a b : Body) : blocks (a ++ b) = blocks a ++ blocks b := by simp [blocks, List.filterMap_append]

theorem notNamed_blocks {k : Str} {b : Body} (h : NotNamed k b) : ∀ q ∈ blocks b, q.type.str ≠ k := fun q hq e => by
  obtain ⟨x, hx, hk⟩ := block_named hq
  exact h x hx (hk.trans e)

theorem notNamed_attrs {k : Str} {b : Body} (h : NotNamed k b) : ∀ p ∈ attrs b, p.1.str ≠ k := fun p hp e => by
  obtain ⟨x, hx, hk⟩ := attr_named hp
  exact h x hx (hk.trans e)

/-- names of the first file only -/
theorem entry_first {a b : Body} {k : Str} (h : NotNamed k b) (n : Node) : EntryOf (a ++ b) k n ↔ EntryOf a k n := by
  unfold EntryOf
  rw [attrs_two, blocks_two]
  refine or_congr ?_ (exists_congr fun run => by rw [lastRun_before (notNamed_blocks h)])
  refine exists_congr fun c => exists_congr fun e => and_congr_left fun hk => ?_
  rw [List.mem_append]
  exact ⟨fun hm => hm.resolve_right fun hm => notNamed_attrs h _ hm hk.1, .inl⟩

/-- names of the second file only -/
theorem entry_second {a b : Body} {k : Str} (h : NotNamed k a) (n : Node) : EntryOf (a ++ b) k n ↔ EntryOf b k n := by
  unfold EntryOf
  rw [attrs_two, blocks_two]
  refine or_congr ?_ ?_
  · refine exists_congr fun c => exists_congr fun e => and_congr_left fun hk => ?_
    rw [List.mem_append]
    exact ⟨fun hm => hm.resolve_left fun hm => notNamed_attrs h _ hm hk.1, .inr⟩
  · refine exists_congr fun run => and_congr_left fun _ => ?_
    by_cases hb : ∃ q ∈ blocks b, q.type.str = k
    · exact lastRun_after (fun q hq => notNamed_blocks h q (List.mem_of_getLast? hq)) hb
    · constructor
      · intro hl
        obtain ⟨q, hq, ht⟩ := (lastRun_sub hl).1
        rcases List.mem_append.1 hq with hq | hq
        · exact absurd ht (notNamed_blocks h q hq)
        · exact absurd ⟨q, hq, ht⟩ hb
      · intro hl
        exact absurd (lastRun_sub hl).1 hb

theorem entry_named {b : Body} {k : Str} {n : Node} (h : EntryOf b k n) : ¬ NotNamed k b := fun hn => by
  obtain ⟨x, hx, hk⟩ := List.mem_map.1 (entry_key h)
  exact hn x hx hk

theorem apart_left {a b : Body} (h : NamesApart a b) {k : Str} (hk : ¬ NotNamed k a) : NotNamed k b := fun y hy e =>
  hk fun x hx e' => h x hx y hy (e'.trans e.symm)

theorem entry_two {a b : Body} (h : NamesApart a b) (k : Str) (n : Node) : EntryOf (a ++ b) k n ↔ EntryOf a k n ∨ EntryOf b k n := by
  by_cases ha : NotNamed k a
  · rw [entry_second ha]
    exact ⟨.inr, fun h' => h'.resolve_left fun h' => entry_named h' ha⟩
  · have hb := apart_left h ha
    rw [entry_first hb]
    exact ⟨.inl, fun h' => h'.resolve_right fun h' => entry_named h' hb⟩

theorem distinct_two {a b : Body} (h : NamesApart a b) : Distinct (attrs (a ++ b)) ↔ Distinct (attrs a) ∧ Distinct (attrs b) := by
  unfold Distinct
  rw [attrs_two, List.map_append, List.nodup_append]
  constructor
  · exact fun ⟨h1, h2, _⟩ => ⟨h1, h2⟩
  · refine fun ⟨h1, h2⟩ => ⟨h1, h2, ?_⟩
    intro x hx y hy e
    obtain ⟨p, hp, rfl⟩ := List.mem_map.1 hx
    obtain ⟨q, hq, rfl⟩ := List.mem_map.1 hy
    obtain ⟨u, hu, hu'⟩ := attr_named hp
    obtain ⟨w, hw, hw'⟩ := attr_named hq
    exact h u hu w hw (hu'.trans (e.trans hw'.symm))

theorem clash_two {a b : Body} (h : NamesApart a b) : ¬ NameClash (a ++ b) ↔ ¬ NameClash a ∧ ¬ NameClash b := by
  constructor
  · intro hn
    refine ⟨fun ⟨p, hp, q, hq, e⟩ => hn ⟨p, ?_, q, ?_, e⟩, fun ⟨p, hp, q, hq, e⟩ => hn ⟨p, ?_, q, ?_, e⟩⟩ <;>
      simp [attrs_two, blocks_two, hp, hq]
  · rintro ⟨h1, h2⟩ ⟨p, hp, q, hq, e⟩
    rw [attrs_two] at hp
    rw [blocks_two] at hq
    rcases List.mem_append.1 hp with hp | hp <;> rcases List.mem_append.1 hq with hq | hq
    · exact h1 ⟨p, hp, q, hq, e⟩
    · obtain ⟨u, hu, hu'⟩ := attr_named hp
      obtain ⟨w, hw, hw'⟩ := block_named hq
      exact h u hu w hw (hu'.trans (e.trans hw'.symm))
    · obtain ⟨u, hu, hu'⟩ := block_named hq
      obtain ⟨w, hw, hw'⟩ := attr_named hp
      exact h u hu w hw (hu'.trans (e.symm.trans hw'.symm))
    · exact h2 ⟨p, hp, q, hq, e⟩

theorem rel_length {α β : Type} {R : α → β → Prop} {as : List α} {bs : List β} (h : AllRel R as bs) : as.length = bs.length := by
  induction h with
  | nil => rfl
  | cons _ _ _ _ _ _ ih => simp [ih]

section
variable (P : F64Parse) (I : F64OfInt) (ord : HashOrder)

/-- C106: elements that come from two places with names of their own, and a struct whose first fields are those of the first and
whose last fields are those of the second: it is read exactly if both structs are, and then its fields are theirs. -/
theorem c106_struct (fs gs : List (Str × Ty)) (hn : ((fs ++ gs).map Prod.fst).Nodup) (a b : Body) (h : NamesApart a b)
    (hf : ∀ f ∈ fs, NotNamed f.1 b) (hg : ∀ g ∈ gs, NotNamed g.1 a) (v : DVal) :
    deserialize P I ord (.struct (fs ++ gs)) (.body (a ++ b)) = .ok v ↔ ∃ vs ws, v = .entries (vs ++ ws) ∧
      deserialize P I ord (.struct fs) (.body a) = .ok (.entries vs) ∧ deserialize P I ord (.struct gs) (.body b) = .ok (.entries ws) := by
  have hnf : (fs.map Prod.fst).Nodup := by rw [List.map_append] at hn; exact (List.nodup_append.1 hn).1
  have hng : (gs.map Prod.fst).Nodup := by rw [List.map_append] at hn; exact (List.nodup_append.1 hn).2.1
  rw [c58_struct P I ord _ hn, distinct_two h, clash_two h]
  have key : ∀ (a' : Body) (hs : List (Str × Ty)) (vs : List (Str × DVal)), (∀ f ∈ hs, ∀ n, EntryOf (a ++ b) f.1 n ↔ EntryOf a' f.1 n) →
      (AllRel (fun f q => q.1 = f.1 ∧ ((∃ n, EntryOf (a ++ b) f.1 n ∧ deserialize P I ord f.2 n = .ok q.2) ∨
        ((∀ n, ¬ EntryOf (a ++ b) f.1 n) ∧ (∃ t, f.2 = .option t) ∧ q.2 = .none))) hs vs ↔
      AllRel (fun f q => q.1 = f.1 ∧ ((∃ n, EntryOf a' f.1 n ∧ deserialize P I ord f.2 n = .ok q.2) ∨
        ((∀ n, ¬ EntryOf a' f.1 n) ∧ (∃ t, f.2 = .option t) ∧ q.2 = .none))) hs vs) := by
    intro a' hs vs he
    constructor <;> refine fun hR => hR.imp fun f q hf' _ ⟨h1, h2⟩ => ⟨h1, ?_⟩
    · rcases h2 with ⟨n, h3, h4⟩ | ⟨h3, h4⟩
      · exact .inl ⟨n, (he f hf' n).1 h3, h4⟩
      · exact .inr ⟨fun n hn => h3 n ((he f hf' n).2 hn), h4⟩
    · rcases h2 with ⟨n, h3, h4⟩ | ⟨h3, h4⟩
      · exact .inl ⟨n, (he f hf' n).2 h3, h4⟩
      · exact .inr ⟨fun n hn => h3 n ((he f hf' n).1 hn), h4⟩
  have e1 : ∀ f ∈ fs, ∀ n, EntryOf (a ++ b) f.1 n ↔ EntryOf a f.1 n := fun f hf' n => entry_first (hf f hf') n
  have e2 : ∀ g ∈ gs, ∀ n, EntryOf (a ++ b) g.1 n ↔ EntryOf b g.1 n := fun g hg' n => entry_second (hg g hg') n
  constructor
  · rintro ⟨⟨hd1, hd2⟩, ⟨hc1, hc2⟩, ⟨xs, rfl, hR⟩, hx⟩
    have hlen : (fs ++ gs).length = xs.length := rel_length hR
    have hl : (xs.take fs.length).length = fs.length := by rw [List.length_take]; simp at hlen; omega
    rw [← List.take_append_drop fs.length xs, allRel_append_iff hl.symm, key a fs _ e1, key b gs _ e2] at hR
    refine ⟨xs.take fs.length, xs.drop fs.length, by rw [List.take_append_drop], ?_, ?_⟩
    · refine (c58_struct P I ord fs hnf a _).2 ⟨hd1, hc1, ⟨_, rfl, hR.1⟩, fun k n hk hkn => hx k n ((entry_two h k n).2 (.inl hk)) ?_⟩
      rw [List.map_append, List.mem_append]
      rintro (hk' | hk')
      · exact hkn hk'
      · obtain ⟨g, hg', rfl⟩ := List.mem_map.1 hk'
        exact entry_named hk (hg g hg')
    · refine (c58_struct P I ord gs hng b _).2 ⟨hd2, hc2, ⟨_, rfl, hR.2⟩, fun k n hk hkn => hx k n ((entry_two h k n).2 (.inr hk)) ?_⟩
      rw [List.map_append, List.mem_append]
      rintro (hk' | hk')
      · obtain ⟨f, hf', rfl⟩ := List.mem_map.1 hk'
        exact entry_named hk (hf f hf')
      · exact hkn hk'
  · rintro ⟨vs, ws, rfl, h1, h2⟩
    obtain ⟨hd1, hc1, ⟨vs', e, hR1⟩, hx1⟩ := (c58_struct P I ord fs hnf a _).1 h1
    cases e
    obtain ⟨hd2, hc2, ⟨ws', e, hR2⟩, hx2⟩ := (c58_struct P I ord gs hng b _).1 h2
    cases e
    have hlen : fs.length = vs.length := rel_length hR1
    refine ⟨⟨hd1, hd2⟩, ⟨hc1, hc2⟩, ⟨_, rfl, (allRel_append_iff hlen).2 ⟨(key a fs _ e1).2 hR1, (key b gs _ e2).2 hR2⟩⟩, fun k n hk hkn => ?_⟩
    rw [List.map_append, List.mem_append, not_or] at hkn
    rcases (entry_two h k n).1 hk with hk | hk
    · exact hx1 k n hk hkn.1
    · exact hx2 k n hk hkn.2

/-- C106: the same for maps: the entries are those of both. -/
theorem c106_map (t : Ty) (a b : Body) (h : NamesApart a b) :
    ((∃ v, deserialize P I ord (.map t) (.body (a ++ b)) = .ok v) ↔
      (∃ v, deserialize P I ord (.map t) (.body a) = .ok v) ∧ ∃ v, deserialize P I ord (.map t) (.body b) = .ok v) ∧
    ∀ v va vb, deserialize P I ord (.map t) (.body (a ++ b)) = .ok v → deserialize P I ord (.map t) (.body a) = .ok va →
      deserialize P I ord (.map t) (.body b) = .ok vb → ∃ xs vs ws, v = .entries xs ∧ va = .entries vs ∧ vb = .entries ws ∧
        xs.Perm (vs ++ ws) := by
  constructor
  · rw [c59_map_succeeds_iff, c59_map_succeeds_iff, c59_map_succeeds_iff, distinct_two h, clash_two h]
    constructor
    · rintro ⟨⟨d1, d2⟩, ⟨c1, c2⟩, he⟩
      exact ⟨⟨d1, c1, fun k n hk => he k n ((entry_two h k n).2 (.inl hk))⟩, d2, c2, fun k n hk => he k n ((entry_two h k n).2 (.inr hk))⟩
    · rintro ⟨⟨d1, c1, e1⟩, d2, c2, e2⟩
      exact ⟨⟨d1, d2⟩, ⟨c1, c2⟩, fun k n hk => ((entry_two h k n).1 hk).elim (e1 k n) (e2 k n)⟩
  · intro v va vb hv hva hvb
    obtain ⟨xs, rfl, n1, h1⟩ := c59_map P I ord t _ v hv
    obtain ⟨vs, rfl, n2, h2⟩ := c59_map P I ord t _ va hva
    obtain ⟨ws, rfl, n3, h3⟩ := c59_map P I ord t _ vb hvb
    refine ⟨xs, vs, ws, rfl, rfl, rfl, ?_⟩
    have nodup : ∀ {l : List (Str × DVal)}, (l.map Prod.fst).Nodup → l.Nodup := fun h =>
      (List.pairwise_map.1 h).imp fun hne e => hne (congrArg Prod.fst e)
    refine (List.perm_ext_iff_of_nodup (nodup n1) (List.nodup_append.2 ⟨nodup n2, nodup n3, ?_⟩)).2 ?_
    · rintro ⟨k, w⟩ hx _ hy rfl
      obtain ⟨n, hn, -⟩ := (h2 k w).1 hx
      obtain ⟨m, hm, -⟩ := (h3 k w).1 hy
      exact entry_named hm (apart_left h (entry_named hn))
    · rintro ⟨k, w⟩
      rw [h1, List.mem_append, h2, h3]
      constructor
      · rintro ⟨n, hn, hw⟩
        exact ((entry_two h k n).1 hn).imp (fun hn => ⟨n, hn, hw⟩) fun hn => ⟨n, hn, hw⟩
      · rintro (⟨n, hn, hw⟩ | ⟨n, hn, hw⟩)
        · exact ⟨n, (entry_two h k n).2 (.inl hn), hw⟩
        · exact ⟨n, (entry_two h k n).2 (.inr hn), hw⟩

/-- C106: an attribute that is in both, or in one of them with the name of a block in the other, is not read as anything. -/
theorem c106_attribute_in_both (t : Ty) (ht : ProperTy t) (a b : Body) (k : CowStr) (e : Expr) (v : DVal)
    (h : ((k, e) ∈ attrs a ∧ ¬ NotNamed k.str b) ∨ ((k, e) ∈ attrs b ∧ ¬ NotNamed k.str a)) :
    deserialize P I ord t (.body (a ++ b)) ≠ .ok v := by
  intro hv
  have hr := c68_deserialized_is_read P I ord t ht _ v hv
  have hbe : ∃ ns, BodyEntries (a ++ b) ns := by
    cases hr with
    | body _ _ ns _ he _ => exact ⟨ns, he⟩
  obtain ⟨ns, hd, hc, -⟩ := hbe
  have named : ∀ {b : Body}, ¬ NotNamed k.str b → (∃ p ∈ attrs b, p.1.str = k.str) ∨ ∃ q ∈ blocks b, q.type.str = k.str := by
    intro b hb
    unfold NotNamed at hb
    simp only [ne_eq, Classical.not_forall, Classical.not_not] at hb
    obtain ⟨x, hx, hk⟩ := hb
    cases x with
    | «attribute» c y => exact .inl ⟨(c, y), by rw [attrs, List.mem_filterMap]; exact ⟨_, hx, rfl⟩, hk⟩
    | block c ls y => exact .inr ⟨⟨c, ls, y⟩, by rw [blocks, List.mem_filterMap]; exact ⟨_, hx, rfl⟩, hk⟩
  unfold Distinct at hd
  rw [attrs_two, List.map_append, List.nodup_append] at hd
  rcases h with ⟨h1, h2⟩ | ⟨h1, h2⟩
  · rcases named h2 with ⟨p, hp, hk⟩ | ⟨q, hq, hk⟩
    · exact hd.2.2 _ (List.mem_map.2 ⟨_, h1, rfl⟩) _ (List.mem_map.2 ⟨p, hp, rfl⟩) hk.symm
    · exact hc ⟨_, by rw [attrs_two]; exact List.mem_append_left _ h1, q, by rw [blocks_two]; exact List.mem_append_right _ hq, hk.symm⟩
  · rcases named h2 with ⟨p, hp, hk⟩ | ⟨q, hq, hk⟩
    · exact hd.2.2 _ (List.mem_map.2 ⟨p, hp, rfl⟩) _ (List.mem_map.2 ⟨_, h1, rfl⟩) hk
    · exact hc ⟨_, by rw [attrs_two]; exact List.mem_append_right _ h1, q, by rw [blocks_two]; exact List.mem_append_left _ hq, hk.symm⟩

/-- C106: blocks of one type in both files, where something else is between them: those of the first file are lost without notice. -/
theorem c106_blocks_lost (fs : List (Str × Ty)) (hfs : (fs.map Prod.fst).Nodup) (a b : Body) (vs : List (Str × DVal))
    (hv : deserialize P I ord (.struct fs) (.body (a ++ b)) = .ok (.entries vs)) (k : Str) (t : Ty) (hk : (k, t) ∈ fs)
    (hb : ∃ q ∈ blocks b, q.type.str = k) (hsep : (∀ q, (blocks a).getLast? = some q → q.type.str ≠ k)) (w : DVal)
    (hw : deserialize P I ord (.struct [(k, t)]) (.body b) = .ok (.entries [(k, w)])) : (k, w) ∈ vs := by
  obtain ⟨hd, hc, ⟨vs', e, hR⟩, -⟩ := (c58_struct P I ord fs hfs _ _).1 hv
  cases e
  obtain ⟨-, hc', ⟨ws, e, hS⟩, -⟩ := (c58_struct P I ord [(k, t)] (by simp) _ _).1 hw
  cases e
  obtain ⟨run, hrun⟩ := lastRun_of_mem hb
  have hE : EntryOf (a ++ b) k (.block (BlockBody.fromIter (run.map fun q => (q.labels, q.body)))) :=
    .inr ⟨run, by rw [blocks_two]; exact (lastRun_after hsep hb).2 hrun, rfl⟩
  have hE' : EntryOf b k (.block (BlockBody.fromIter (run.map fun q => (q.labels, q.body)))) := .inr ⟨run, hrun, rfl⟩
  have hw' : deserialize P I ord t (.block (BlockBody.fromIter (run.map fun q => (q.labels, q.body)))) = .ok w := by
    cases hS with
    | cons _ _ _ _ h1 _ =>
      rcases h1.2 with ⟨n, hn, hw⟩ | ⟨hno, -⟩
      · rcases hn with ⟨c, e, hm, hk', rfl⟩ | ⟨r, hr, rfl⟩
        · exfalso
          obtain ⟨q, hq, hqt⟩ := hb
          exact hc' ⟨_, hm, q, hq, hk'.trans hqt.symm⟩
        · rw [lastRun_unique hrun hr]; exact hw
      · exact absurd hE' (hno _)
  obtain ⟨⟨k', w'⟩, hq, hk', h2⟩ := hR.left hk
  simp only at hk' h2
  subst hk'
  rcases h2 with ⟨n, hn, hw2⟩ | ⟨hno, -⟩
  · rw [entry_unique hd hc hn hE, hw'] at hw2
    cases hw2
    exact hq
  · exact absurd hE (hno _)

/-- C106: blocks of one type in both files, with blocks of the same type next to each other in the whole: a list of them has those of
the first and then those of the second. -/
theorem c106_blocks_joined (fs : List (Str × Ty)) (hfs : (fs.map Prod.fst).Nodup) (a b : Body) (vs : List (Str × DVal))
    (hv : deserialize P I ord (.struct fs) (.body (a ++ b)) = .ok (.entries vs)) (k : Str) (t : Ty) (hk : (k, .seq t) ∈ fs)
    (ha : TypesAdjacent (blocks (a ++ b))) (hn : blocksNamed k (a ++ b) ≠ []) (hl : ∀ q ∈ blocksNamed k (a ++ b), q.labels = []) :
    ∃ xs ys, (k, .seq (xs ++ ys)) ∈ vs ∧
      AllRel (fun q w => deserialize P I ord t (.body q.body) = .ok w) (blocksNamed k a) xs ∧
      AllRel (fun q w => deserialize P I ord t (.body q.body) = .ok w) (blocksNamed k b) ys := by
  obtain ⟨hd, hc, ⟨vs', e, hR⟩, -⟩ := (c58_struct P I ord fs hfs _ _).1 hv
  cases e
  have hrun : LastRun k (blocks (a ++ b)) (blocksNamed k (a ++ b)) := (lastRun_adjacent ha k _).2 ⟨hn, rfl⟩
  have hE : EntryOf (a ++ b) k (.block (BlockBody.fromIter ((blocksNamed k (a ++ b)).map fun q => (q.labels, q.body)))) :=
    .inr ⟨_, hrun, rfl⟩
  obtain ⟨⟨k', w'⟩, hq, hk', h2⟩ := hR.left hk
  simp only at hk' h2
  subst hk'
  rcases h2 with ⟨n, hn, hw2⟩ | ⟨hno, -⟩
  · rw [entry_unique hd hc hn hE, fromIter_unlabelled hl, c50_into_vec] at hw2
    obtain ⟨ws, rfl, hA⟩ := hw2
    have two : blocksNamed k' (a ++ b) = blocksNamed k' a ++ blocksNamed k' b := by
      rw [blocksNamed, blocks_two, List.filter_append]; rfl
    rw [two, List.map_append] at hA
    have hlen := rel_length hA
    have hl2 : (ws.take (blocksNamed k' a).length).length = ((blocksNamed k' a).map Block.body).length := by
      rw [List.length_take]; simp at hlen ⊢; omega
    rw [← List.take_append_drop (blocksNamed k' a).length ws, allRel_append_iff hl2.symm] at hA
    have unmap : ∀ {l : List Block} {us : List DVal}, AllRel (fun b w => deserialize P I ord t (.body b) = .ok w) (l.map Block.body) us →
        AllRel (fun q w => deserialize P I ord t (.body q.body) = .ok w) l us := by
      intro l
      induction l with
      | nil => intro us h; cases h; exact .nil
      | cons q l ih => intro us h; cases h with
        | cons _ _ _ _ h1 h2 => exact .cons _ _ _ _ h1 (ih h2)
    refine ⟨_, _, ?_, unmap hA.1, unmap hA.2⟩
    rw [List.take_append_drop]
    exact hq
  · exact absurd hE (hno _)

/-- C106: for files: put one after the other, with a line end between them, they are read as the struct with the fields of both. -/
theorem c106_files (U : CharClass) (fs gs : List (Str × Ty)) (hn : ((fs ++ gs).map Prod.fst).Nodup) (s s' : Str) (a b : Body)
    (hs : parseStr U s = .ok a) (hs' : parseStr U s' = .ok b) (h : NamesApart a b)
    (hf : ∀ f ∈ fs, NotNamed f.1 b) (hg : ∀ g ∈ gs, NotNamed g.1 a) (v : DVal) :
    deFromStr U P I ord (.struct (fs ++ gs)) (s ++ '\n' :: s') = .ok v ↔ ∃ vs ws, v = .entries (vs ++ ws) ∧
      deFromStr U P I ord (.struct fs) s = .ok (.entries vs) ∧ deFromStr U P I ord (.struct gs) s' = .ok (.entries ws) := by
  have e : ∀ {t : Ty} {x : Str} {c : Body}, parseStr U x = .ok c → deFromStr U P I ord t x = deserialize P I ord t (.body c) := by
    intro t x c hx
    unfold deFromStr; rw [hx]
  rw [e (c16_concat U s s' a b hs hs'), e hs, e hs']
  exact c106_struct P I ord fs gs hn a b h hf hg v
end


/-- the body `a = true` -/
def onBody : Body := [.attribute (.borrowed ['a']) (.boolean true)]

theorem apart_sample : NamesApart onBody [cutBlock '1'] := by
  intro x hx y hy
  simp only [onBody, List.mem_cons, List.not_mem_nil, or_false] at hx hy
  subst hx; subst hy
  decide

theorem notNamed_cut {k : Str} (h : k ≠ ['c']) : NotNamed k [cutBlock '1'] := by
  intro x hx
  simp only [List.mem_cons, List.not_mem_nil, or_false] at hx
  subst hx; exact fun e => h e.symm

theorem notNamed_on {k : Str} (h : k ≠ ['a']) : NotNamed k onBody := by
  intro x hx
  simp only [onBody, List.mem_cons, List.not_mem_nil, or_false] at hx
  subst hx; exact fun e => h e.symm

/-- Non-vacuity: two files with names of their own. -/
example (P : F64Parse) (I : F64OfInt) : deFromStr asciiClass P I ord0 (.struct ([("a".toList, .bool)] ++
      [("c".toList, .seq (.struct [("v".toList, .string)])), ("on".toList, .option .bool)])) ("a = true".toList ++ '\n' :: "c { v = \"1\" }\n".toList) =
    .ok (.entries ([("a".toList, .bool true)] ++ [("c".toList, .seq [cutVal '1']), ("on".toList, .none)])) := by
  refine (c106_files P I ord0 asciiClass _ _ (by decide) _ _ onBody [cutBlock '1'] (by decide +kernel) (by decide +kernel) apart_sample ?_ ?_ _).2
    ⟨_, _, rfl, (one_read P I).1, (cut_read P I).1⟩
  · intro f hf
    simp only [List.mem_cons, List.not_mem_nil, or_false] at hf
    subst hf; exact notNamed_cut (by decide)
  · intro f hf
    simp only [List.mem_cons, List.not_mem_nil, or_false] at hf
    rcases hf with rfl | rfl <;> exact notNamed_on (by decide)

/-- Non-vacuity: the same for bodies. -/
example (P : F64Parse) (I : F64OfInt) (v : DVal) := (c106_struct P I ord0 [("a".toList, .bool)] [("c".toList, .seq .ignored)] (by decide)
  onBody [cutBlock '1'] apart_sample (by
    intro f hf
    simp only [List.mem_cons, List.not_mem_nil, or_false] at hf
    subst hf; exact notNamed_cut (by decide)) (by
    intro f hf
    simp only [List.mem_cons, List.not_mem_nil, or_false] at hf
    subst hf; exact notNamed_on (by decide)) v).1

/-- Non-vacuity: maps. -/
example (P : F64Parse) (I : F64OfInt) : ∃ v, deserialize P I ord0 (.map .any) (.body (onBody ++ [cutBlock '1'])) = .ok v := by
  refine ((c106_map P I ord0 .any onBody [cutBlock '1'] apart_sample).1).2 ⟨⟨.entries [("a".toList, .bool true)], ?_⟩,
    ⟨.entries [("c".toList, cutVal '1')], ?_⟩⟩
  all_goals
    rw [deserialize, deN_fuel P I ord0 _ _ _ _ 100000 (Nat.lt_succ_self _) (Nat.lt_succ_self _)]
    · rfl
    · decide +kernel

/-- Non-vacuity: an attribute in both files. -/
example (P : F64Parse) (I : F64OfInt) (v : DVal) : deserialize P I ord0 .any (.body (onBody ++ onBody)) ≠ .ok v :=
  c106_attribute_in_both P I ord0 .any .any onBody onBody (.borrowed ['a']) (.boolean true) v
    (.inl ⟨by simp [attrs, onBody], fun h => h _ (List.mem_cons_self) rfl⟩)

theorem scattered_read (P : F64Parse) (I : F64OfInt) :
    deserialize P I ord0 cutTy (.body ([cutBlock '1', .block (.borrowed ['d']) [] []] ++ [cutBlock '2'])) =
      .ok (.entries [("c".toList, .seq [cutVal '2']), ("on".toList, .none)]) ∧
    deserialize P I ord0 (.struct [("c".toList, .seq (.struct [("v".toList, .string)]))]) (.body [cutBlock '2']) =
      .ok (.entries [("c".toList, .seq [cutVal '2'])]) ∧
    deserialize P I ord0 cutTy (.body ([cutBlock '1'] ++ [cutBlock '2'])) =
      .ok (.entries [("c".toList, .seq [cutVal '1', cutVal '2']), ("on".toList, .none)]) := by
  refine ⟨?_, ?_, ?_⟩
  all_goals
    rw [deserialize, deN_fuel P I ord0 _ _ _ _ 100000 (Nat.lt_succ_self _) (Nat.lt_succ_self _)]
    · rfl
    · decide +kernel

/-- Non-vacuity: a block of the first file is lost. -/
example (P : F64Parse) (I : F64OfInt) : ("c".toList, DVal.seq [cutVal '2']) ∈ [("c".toList, DVal.seq [cutVal '2']), ("on".toList, .none)] :=
  c106_blocks_lost P I ord0 _ (by decide) _ _ _ (scattered_read P I).1 "c".toList _ (by simp) ⟨_, List.mem_cons_self, rfl⟩
    (by intro q hq; cases hq; decide) _ (scattered_read P I).2.1

/-- Non-vacuity: blocks that are joined. -/
example (P : F64Parse) (I : F64OfInt) := c106_blocks_joined P I ord0 _ (by decide) _ _ _ (scattered_read P I).2.2 "c".toList _ (List.mem_cons_self)
  (by
    intro pre a mid c post e _ x hx
    have hall : ∀ q ∈ pre ++ a :: mid ++ c :: post, q.type.str = ['c'] := by
      rw [← e]; intro q hq
      simp only [cutBlock, blocks, List.cons_append, List.nil_append, List.filterMap_cons, List.filterMap_nil, List.mem_cons,
        List.not_mem_nil, or_false] at hq
      rcases hq with rfl | rfl <;> rfl
    rw [hall x (by simp [hx]), hall a (by simp)])
  (by decide +kernel) (by
    intro q hq
    replace hq := (List.mem_filter.1 hq).1
    simp only [cutBlock, blocks, List.cons_append, List.nil_append, List.filterMap_cons, List.filterMap_nil, List.mem_cons,
      List.not_mem_nil, or_false] at hq
    rcases hq with rfl | rfl <;> rfl)

end Verif.Props
