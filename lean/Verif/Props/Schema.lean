import Verif.Proofs.Alike
import Verif.Props.Reads
/-!
# Documents and struct types that change over time: C80

What adding and removing entries of a document, and fields of a derived struct, does to the value read.
-/
set_option autoImplicit false

namespace Verif.Props
open Verif Spec

theorem allRel_append_iff {α β : Type} {R : α → β → Prop} : ∀ {as as' : List α} {bs bs' : List β}, as.length = bs.length →
      (AllRel R (as ++ as') (bs ++ bs') ↔ AllRel R as bs ∧ AllRel R as' bs') := by
  intro as
  induction as with
  | nil =>
    intro as' bs bs' hl
    cases bs with
    | nil => exact ⟨fun h => ⟨.nil, h⟩, fun h => h.2⟩
    | cons => cases hl
  | cons a as ih =>
    intro as' bs bs' hl
    cases bs with
    | nil => cases hl
    | cons b bs =>
      have := ih (as' := as') (bs := bs) (bs' := bs') (by simpa using hl)
      constructor
      · intro h
        cases h with
        | cons _ _ _ _ h1 h2 => exact ⟨.cons _ _ _ _ h1 (this.1 h2).1, (this.1 h2).2⟩
      · rintro ⟨h1, h2⟩
        cases h1 with
        | cons _ _ _ _ h3 h4 => exact .cons _ _ _ _ h3 (this.2 ⟨h4, h2⟩)

section
variable (P : F64Parse) (I : F64OfInt) (ord : HashOrder)

/-- C80: only the declared entries matter: if a struct is read from `b`, and `b'` has the same declared entries, then the
same struct is read from `b'`, provided that its other entries can be skipped. -/
theorem c80_only_declared_entries (fs : List (Str × Ty)) (hfs : (fs.map Prod.fst).Nodup) (b b' : Body) (v : DVal)
    (h : deserialize P I ord (.struct fs) (.body b) = .ok v) (hd : Distinct (attrs b')) (hc : ¬ NameClash b')
    (he : ∀ k ∈ fs.map Prod.fst, ∀ n, EntryOf b k n ↔ EntryOf b' k n)
    (hx : ∀ k n, EntryOf b' k n → k ∉ fs.map Prod.fst → ∃ w, deserialize P I ord .ignored n = .ok w) :
    deserialize P I ord (.struct fs) (.body b') = .ok v := by
  rw [c58_struct P I ord fs hfs] at h ⊢
  obtain ⟨-, -, ⟨vs, rfl, hr⟩, -⟩ := h
  refine ⟨hd, hc, ⟨vs, rfl, hr.imp fun f q hf _ ⟨h1, h2⟩ => ⟨h1, ?_⟩⟩, hx⟩
  have hk : f.1 ∈ fs.map Prod.fst := List.mem_map.2 ⟨f, hf, rfl⟩
  rcases h2 with ⟨n, hn, hv⟩ | ⟨hno, ht, hv⟩
  · exact .inl ⟨n, (he _ hk n).1 hn, hv⟩
  · exact .inr ⟨fun n hn => hno n ((he _ hk n).2 hn), ht, hv⟩

theorem attrs_insert (pre post : Body) (k : CowStr) (e : Expr) :
    attrs (pre ++ .attribute k e :: post) = attrs pre ++ (k, e) :: attrs post ∧
    attrs (pre ++ post) = attrs pre ++ attrs post ∧ blocks (pre ++ .attribute k e :: post) = blocks (pre ++ post) := by
  simp [attrs, blocks, List.filterMap_append]

/-- C80: an attribute that is not declared can be added anywhere, or removed, without a change of the struct read. This
needs that its name is not used for another entry and that its value can be skipped; otherwise nothing is read. -/
theorem c80_undeclared_attribute (fs : List (Str × Ty)) (hfs : (fs.map Prod.fst).Nodup) (pre post : Body) (k : CowStr) (e : Expr)
    (hk : k.str ∉ fs.map Prod.fst) (v : DVal) :
    deserialize P I ord (.struct fs) (.body (pre ++ .attribute k e :: post)) = .ok v ↔
      deserialize P I ord (.struct fs) (.body (pre ++ post)) = .ok v ∧ (∀ n, ¬ EntryOf (pre ++ post) k.str n) ∧
      ∃ w, deserialize P I ord .ignored (.expr e) = .ok w := by
  obtain ⟨ha, ha', hb⟩ := attrs_insert pre post k e
  have hent : ∀ k' n, EntryOf (pre ++ .attribute k e :: post) k' n ↔ EntryOf (pre ++ post) k' n ∨ (k' = k.str ∧ n = .expr e) := by
    intro k' n
    unfold EntryOf
    rw [ha, ha', hb]
    constructor
    · rintro (⟨c, x, hm, rfl, rfl⟩ | hr)
      · rcases List.mem_append.1 hm with hm | hm
        · exact .inl (.inl ⟨c, x, List.mem_append.2 (.inl hm), rfl, rfl⟩)
        · rcases List.mem_cons.1 hm with hm | hm
          · cases hm; exact .inr ⟨rfl, rfl⟩
          · exact .inl (.inl ⟨c, x, List.mem_append.2 (.inr hm), rfl, rfl⟩)
      · exact .inl (.inr hr)
    · rintro ((⟨c, x, hm, rfl, rfl⟩ | hr) | ⟨rfl, rfl⟩)
      · refine .inl ⟨c, x, ?_, rfl, rfl⟩
        rcases List.mem_append.1 hm with hm | hm <;> simp [hm]
      · exact .inr hr
      · exact .inl ⟨k, e, by simp, rfl, rfl⟩
  have hperm : ((attrs (pre ++ .attribute k e :: post)).map fun p => p.1.str).Perm (k.str :: (attrs (pre ++ post)).map fun p => p.1.str) := by
    rw [ha, ha', List.map_append, List.map_cons, List.map_append]
    exact List.perm_middle
  have hdist : Distinct (attrs (pre ++ .attribute k e :: post)) ↔
      k.str ∉ (attrs (pre ++ post)).map (fun p => p.1.str) ∧ Distinct (attrs (pre ++ post)) := by
    unfold Distinct
    rw [hperm.nodup_iff, List.nodup_cons]
  have hfresh : (∀ n, ¬ EntryOf (pre ++ post) k.str n) ↔
      k.str ∉ (attrs (pre ++ post)).map (fun p => p.1.str) ∧ ∀ q ∈ blocks (pre ++ post), q.type.str ≠ k.str := by
    constructor
    · intro h
      refine ⟨fun hm => ?_, fun q hq hqt => ?_⟩
      · obtain ⟨p, hp, hpk⟩ := List.mem_map.1 hm
        exact h _ (.inl ⟨p.1, p.2, hp, hpk, rfl⟩)
      · obtain ⟨run, hr⟩ := lastRun_of_mem ⟨q, hq, hqt⟩
        exact h _ (.inr ⟨run, hr, rfl⟩)
    · rintro ⟨h1, h2⟩ n (⟨c, x, hm, hc, -⟩ | ⟨run, hr, -⟩)
      · exact h1 (List.mem_map.2 ⟨(c, x), hm, hc⟩)
      · obtain ⟨q, hq, hqt⟩ := (lastRun_sub hr).1
        exact h2 q hq hqt
  have hclash : NameClash (pre ++ .attribute k e :: post) ↔
      NameClash (pre ++ post) ∨ ∃ q ∈ blocks (pre ++ post), q.type.str = k.str := by
    unfold NameClash
    rw [ha, ha', hb]
    constructor
    · rintro ⟨p, hp, q, hq, he⟩
      rcases List.mem_append.1 hp with hp | hp
      · exact .inl ⟨p, by simp [hp], q, hq, he⟩
      · rcases List.mem_cons.1 hp with rfl | hp
        · exact .inr ⟨q, hq, he.symm⟩
        · exact .inl ⟨p, by simp [hp], q, hq, he⟩
    · rintro (⟨p, hp, q, hq, he⟩ | ⟨q, hq, he⟩)
      · refine ⟨p, ?_, q, hq, he⟩
        rcases List.mem_append.1 hp with hp | hp <;> simp [hp]
      · exact ⟨(k, e), by simp, q, hq, he.symm⟩
  constructor
  · intro h
    have h' := (c58_struct P I ord fs hfs _ v).1 h
    obtain ⟨hd, hc, -, hx⟩ := h'
    obtain ⟨hd1, hd2⟩ := hdist.1 hd
    have hc1 : ¬ NameClash (pre ++ post) := fun hn => hc (hclash.2 (.inl hn))
    have hf : ∀ n, ¬ EntryOf (pre ++ post) k.str n :=
      hfresh.2 ⟨hd1, fun q hq hqt => hc (hclash.2 (.inr ⟨q, hq, hqt⟩))⟩
    refine ⟨c80_only_declared_entries P I ord fs hfs _ _ v h hd2 hc1 ?_ ?_, hf, hx k.str _ ((hent _ _).2 (.inr ⟨rfl, rfl⟩)) hk⟩
    · intro k' hk' n
      rw [hent]
      refine ⟨fun h => h.resolve_right fun ⟨h1, _⟩ => hk (h1 ▸ hk'), .inl⟩
    · intro k' n hn hk'
      exact hx k' n ((hent _ _).2 (.inl hn)) hk'
  · rintro ⟨h, hf, hw⟩
    obtain ⟨hd, hc, -, hx⟩ := (c58_struct P I ord fs hfs _ v).1 h
    obtain ⟨hf1, hf2⟩ := hfresh.1 hf
    refine c80_only_declared_entries P I ord fs hfs _ _ v h (hdist.2 ⟨hf1, hd⟩)
      (fun hn => (hclash.1 hn).elim hc fun ⟨q, hq, hqt⟩ => hf2 q hq hqt) ?_ ?_
    · intro k' hk' n
      rw [hent]
      refine ⟨.inl, fun h => h.resolve_right fun ⟨h1, _⟩ => hk (h1 ▸ hk')⟩
    · intro k' n hn hk'
      rcases (hent _ _).1 hn with hn | ⟨rfl, rfl⟩
      · exact hx k' n hn hk'
      · exact hw

theorem lastRun_snoc {t : Str} {bs run : List Block} {q : Block} (hq : q.type.str ≠ t) :
    LastRun t (bs ++ [q]) run ↔ LastRun t bs run := by
  constructor
  · rintro ⟨pre, post, h1, h2, h3, h4, h5⟩
    rcases List.eq_nil_or_concat post with rfl | ⟨as, a, rfl⟩
    · exfalso
      rcases List.eq_nil_or_concat run with rfl | ⟨rs, r, rfl⟩
      · exact h2 rfl
      · rw [List.concat_eq_append, List.append_nil, ← List.append_assoc] at h1
        have := List.append_inj_right' h1 rfl
        cases this
        exact hq (h3 q (by simp))
    · rw [List.concat_eq_append, ← List.append_assoc] at h1
      have h6 := List.append_inj_left' h1 rfl
      exact ⟨pre, as, h6, h2, h3, fun b hb => h4 b (by simp [hb]), h5⟩
  · rintro ⟨pre, post, rfl, h2, h3, h4, h5⟩
    refine ⟨pre, post ++ [q], by simp, h2, h3, ?_, h5⟩
    intro b hb
    rcases List.mem_append.1 hb with hb | hb
    · exact h4 b hb
    · rw [List.mem_singleton.1 hb]; exact hq

/-- C80: a block of a type that is neither declared nor there yet can be added at the end (not anywhere, see
`c80_block_in_run_matters`), or removed from there, if it can be skipped. -/
theorem c80_undeclared_block_at_end (fs : List (Str × Ty)) (hfs : (fs.map Prod.fst).Nodup) (b : Body) (k : CowStr)
    (ls : List BlockLabel) (c : Body) (hk : k.str ∉ fs.map Prod.fst) (hno : ∀ n, ¬ EntryOf b k.str n) (v : DVal) :
    deserialize P I ord (.struct fs) (.body (b ++ [.block k ls c])) = .ok v ↔
      deserialize P I ord (.struct fs) (.body b) = .ok v ∧
      ∃ w, deserialize P I ord .ignored (.block (BlockBody.fromIter [(ls, c)])) = .ok w := by
  have ha : attrs (b ++ [.block k ls c]) = attrs b := by simp [attrs, List.filterMap_append]
  have hb : blocks (b ++ [.block k ls c]) = blocks b ++ [⟨k, ls, c⟩] := by simp [blocks, List.filterMap_append]
  have hnb : ∀ q ∈ blocks b, q.type.str ≠ k.str := fun q hq hqt => by
    obtain ⟨run, hr⟩ := lastRun_of_mem ⟨q, hq, hqt⟩
    exact hno _ (.inr ⟨run, hr, rfl⟩)
  have hlast : LastRun k.str (blocks b ++ [⟨k, ls, c⟩]) [⟨k, ls, c⟩] :=
    ⟨blocks b, [], by simp, by simp, by simp, by simp, fun q hq => hnb q (List.mem_of_getLast? hq)⟩
  have hent : ∀ k' n, EntryOf (b ++ [.block k ls c]) k' n ↔
      EntryOf b k' n ∨ (k' = k.str ∧ n = .block (BlockBody.fromIter [(ls, c)])) := by
    intro k' n
    unfold EntryOf
    rw [ha, hb]
    by_cases hkk : k' = k.str
    · subst hkk
      constructor
      · rintro (h | ⟨run, hr, rfl⟩)
        · exact .inl (.inl h)
        · rw [lastRun_unique hr hlast]; exact .inr ⟨rfl, rfl⟩
      · rintro ((h | ⟨run, hr, rfl⟩) | ⟨-, rfl⟩)
        · exact .inl h
        · exact absurd (.inr ⟨run, hr, rfl⟩) (hno _)
        · exact .inr ⟨_, hlast, rfl⟩
    · constructor
      · rintro (h | ⟨run, hr, rfl⟩)
        · exact .inl (.inl h)
        · exact .inl (.inr ⟨run, (lastRun_snoc (fun h => hkk h.symm)).1 hr, rfl⟩)
      · rintro ((h | ⟨run, hr, rfl⟩) | ⟨h, -⟩)
        · exact .inl h
        · exact .inr ⟨run, (lastRun_snoc (fun h => hkk h.symm)).2 hr, rfl⟩
        · exact absurd h hkk
  have hclash : NameClash (b ++ [.block k ls c]) ↔ NameClash b := by
    unfold NameClash
    rw [ha, hb]
    constructor
    · rintro ⟨p, hp, q, hq, he⟩
      rcases List.mem_append.1 hq with hq | hq
      · exact ⟨p, hp, q, hq, he⟩
      · rw [List.mem_singleton.1 hq] at he
        exact absurd (.inl ⟨p.1, p.2, hp, he, rfl⟩) (hno _)
    · rintro ⟨p, hp, q, hq, he⟩
      exact ⟨p, hp, q, by simp [hq], he⟩
  constructor
  · intro h
    obtain ⟨hd, hc, -, hx⟩ := (c58_struct P I ord fs hfs _ v).1 h
    refine ⟨c80_only_declared_entries P I ord fs hfs _ _ v h (ha ▸ hd) (fun hn => hc (hclash.2 hn)) ?_ ?_,
      hx k.str _ ((hent _ _).2 (.inr ⟨rfl, rfl⟩)) hk⟩
    · intro k' hk' n
      rw [hent]
      exact ⟨fun h => h.resolve_right fun ⟨h1, _⟩ => hk (h1 ▸ hk'), .inl⟩
    · intro k' n hn hk'
      exact hx k' n ((hent _ _).2 (.inl hn)) hk'
  · rintro ⟨h, hw⟩
    obtain ⟨hd, hc, -, hx⟩ := (c58_struct P I ord fs hfs _ v).1 h
    refine c80_only_declared_entries P I ord fs hfs _ _ v h (by rw [ha]; exact hd) (fun hn => hc (hclash.1 hn)) ?_ ?_
    · intro k' hk' n
      rw [hent]
      exact ⟨.inl, fun h => h.resolve_right fun ⟨h1, _⟩ => hk (h1 ▸ hk')⟩
    · intro k' n hn hk'
      rcases (hent _ _).1 hn with hn | ⟨rfl, rfl⟩
      · exact hx k' n hn hk'
      · exact hw

/-- C80: a block with labels cannot be skipped, it panics. -/
theorem c80_labelled_block_panics (ls : List BlockLabel) (c : Body) (hl : ls ≠ []) :
    deserialize P I ord .ignored (.block (BlockBody.fromIter [(ls, c)])) = .panic := by
  have := (c50_labelled (built_fromIter [(ls, c)]) ord .forward (by simp)).2 ⟨(ls, c), by simp, hl⟩
  rw [deserialize_eq]
  exact congrArg (fun r => Res.bind r _) this

/-! ## changing the type -/

/-- C80: a field of type `Option` can be added to a struct: it is `None` for all documents without such an entry, and the
other fields are the same. -/
theorem c80_new_optional_field (fs gs : List (Str × Ty)) (k : Str) (t : Ty) (hfs : ((fs ++ (k, .option t) :: gs).map Prod.fst).Nodup)
    (b : Body) (hno : ∀ n, ¬ EntryOf b k n) (vs ws : List (Str × DVal)) (hl : vs.length = fs.length) :
    deserialize P I ord (.struct (fs ++ (k, .option t) :: gs)) (.body b) = .ok (.entries (vs ++ (k, .none) :: ws)) ↔
      deserialize P I ord (.struct (fs ++ gs)) (.body b) = .ok (.entries (vs ++ ws)) := by
  have hp : ((fs ++ (k, .option t) :: gs).map Prod.fst).Perm (k :: (fs ++ gs).map Prod.fst) := by
    rw [List.map_append, List.map_cons, List.map_append]; exact List.perm_middle
  have hfs' := (List.nodup_cons.1 (hp.nodup_iff.1 hfs))
  rw [c58_struct P I ord _ hfs, c58_struct P I ord _ hfs'.2]
  have hdecl : ∀ k' n, EntryOf b k' n → (k' ∉ (fs ++ (k, .option t) :: gs).map Prod.fst ↔ k' ∉ (fs ++ gs).map Prod.fst) := by
    intro k' n hn
    rw [hp.mem_iff, List.mem_cons, not_or]
    refine ⟨fun h => h.2, fun h => ⟨?_, h⟩⟩
    rintro rfl
    exact hno n hn
  constructor
  · rintro ⟨hd, hc, ⟨vs', hv, hr⟩, hx⟩
    cases hv
    rw [allRel_append_iff hl.symm] at hr
    obtain ⟨h1, h2⟩ := hr
    cases h2 with
    | cons _ _ _ _ h3 h4 =>
      exact ⟨hd, hc, ⟨_, rfl, (allRel_append_iff hl.symm).2 ⟨h1, h4⟩⟩, fun k' n hn hk' => hx k' n hn ((hdecl k' n hn).2 hk')⟩
  · rintro ⟨hd, hc, ⟨vs', hv, hr⟩, hx⟩
    cases hv
    rw [allRel_append_iff hl.symm] at hr
    obtain ⟨h1, h2⟩ := hr
    exact ⟨hd, hc, ⟨_, rfl, (allRel_append_iff hl.symm).2 ⟨h1, .cons _ _ _ _ ⟨rfl, .inr ⟨hno, ⟨t, rfl⟩, rfl⟩⟩ h2⟩⟩,
      fun k' n hn hk' => hx k' n hn ((hdecl k' n hn).1 hk')⟩

/-- C80: a declared field that is not an `Option` must be there. -/
theorem c80_required_field (fs : List (Str × Ty)) (hfs : (fs.map Prod.fst).Nodup) (b : Body) (v : DVal)
    (h : deserialize P I ord (.struct fs) (.body b) = .ok v) (k : Str) (t : Ty) (hk : (k, t) ∈ fs) (ht : ∀ t', t ≠ .option t') :
    ∃ n, EntryOf b k n := by
  obtain ⟨-, -, ⟨vs, rfl, hr⟩, -⟩ := (c58_struct P I ord fs hfs _ v).1 h
  obtain ⟨q, -, -, ⟨n, hn, -⟩ | ⟨-, ⟨t', ht'⟩, -⟩⟩ := hr.left hk
  · exact ⟨n, hn⟩
  · exact absurd ht' (ht t')

/-- C80: a field can be removed from a struct type if what the document has there can be skipped: the other fields are the
same. -/
theorem c80_removed_field (fs gs : List (Str × Ty)) (k : Str) (t : Ty) (hfs : ((fs ++ (k, t) :: gs).map Prod.fst).Nodup)
    (b : Body) (v : DVal) (h : deserialize P I ord (.struct (fs ++ (k, t) :: gs)) (.body b) = .ok v)
    (hs : ∀ n, EntryOf b k n → ∃ w, deserialize P I ord .ignored n = .ok w) :
    ∃ vs x ws, v = .entries (vs ++ (k, x) :: ws) ∧
      deserialize P I ord (.struct (fs ++ gs)) (.body b) = .ok (.entries (vs ++ ws)) := by
  have hp : ((fs ++ (k, t) :: gs).map Prod.fst).Perm (k :: (fs ++ gs).map Prod.fst) := by
    rw [List.map_append, List.map_cons, List.map_append]; exact List.perm_middle
  have hfs' := (List.nodup_cons.1 (hp.nodup_iff.1 hfs))
  obtain ⟨hd, hc, ⟨vs', rfl, hr⟩, hx⟩ := (c58_struct P I ord _ hfs _ v).1 h
  obtain ⟨vs, ws', rfl, h1, h2⟩ := hr.split
  cases h2 with
  | cons _ q _ ws h3 h4 =>
    obtain ⟨k', x⟩ := q
    obtain ⟨rfl, -⟩ := h3
    refine ⟨vs, x, ws, rfl, ?_⟩
    rw [c58_struct P I ord _ hfs'.2]
    refine ⟨hd, hc, ⟨_, rfl, (allRel_append_iff h1.length).2 ⟨h1, h4⟩⟩, fun k'' n hn hk'' => ?_⟩
    by_cases hkk : k'' = k'
    · subst hkk; exact hs n hn
    · exact hx k'' n hn fun hm => (List.mem_cons.1 (hp.mem_iff.1 hm)).elim hkk hk''

end

/-! ## samples -/

/-- an attribute that is not declared, between the others -/
example (P : F64Parse) (I : F64OfInt) (w : DVal) (hw : deserialize P I ord0 .ignored (.expr .null) = .ok w) :
    deserialize P I ord0 sampleTy (.body ([att "a" "x"] ++ .attribute (.borrowed "n".toList) .null :: [bel "c" "1", att "z" "y", bel "c" "2"])) =
      .ok (.entries [("a".toList, .string "x".toList), ("b".toList, .none),
        ("c".toList, .seq [.entries [("v".toList, .string "1".toList)], .entries [("v".toList, .string "2".toList)]])]) := by
  refine (c80_undeclared_attribute P I ord0 _ (by decide) _ _ _ _ (by decide) _).2 ⟨sample_result P I, ?_, w, hw⟩
  rintro n (⟨c, x, hm, hc, -⟩ | ⟨run, hr, -⟩)
  · revert hc
    simp only [attrs, List.cons_append, List.nil_append, List.filterMap_cons, List.filterMap_nil, List.mem_cons, List.not_mem_nil,
      or_false] at hm
    rcases hm with hm | hm <;> cases hm <;> decide
  · obtain ⟨q, hq, hqt⟩ := (lastRun_sub hr).1
    revert hqt
    simp only [blocks, List.cons_append, List.nil_append, List.filterMap_cons, List.filterMap_nil, List.mem_cons, List.not_mem_nil,
      or_false] at hq
    rcases hq with hq | hq <;> subst hq <;> decide

/-- C80: a block that is not declared between two blocks of a declared type does change the value: the first of them is
lost. -/
theorem c80_block_in_run_matters (P : F64Parse) (I : F64OfInt) :
    let t : Ty := .struct [("c".toList, .seq (.struct [("v".toList, .string)]))]
    deserialize P I ord0 t (.body [bel "c" "1", bel "c" "2"]) =
      .ok (.entries [("c".toList, .seq [.entries [("v".toList, .string "1".toList)], .entries [("v".toList, .string "2".toList)]])]) ∧
    deserialize P I ord0 t (.body [bel "c" "1", bel "d" "3", bel "c" "2"]) =
      .ok (.entries [("c".toList, .seq [.entries [("v".toList, .string "2".toList)]])]) := by
  constructor
  · rw [deserialize, deN_fuel P I ord0 _ _ _ _ 100000 (Nat.lt_succ_self _) (Nat.lt_succ_self _)]
    · rfl
    · decide +kernel
  · rw [deserialize, deN_fuel P I ord0 _ _ _ _ 100000 (Nat.lt_succ_self _) (Nat.lt_succ_self _)]
    · rfl
    · decide +kernel

end Verif.Props
