import Verif.Proofs.Merge
/-! # Merging: errors, soundness, idempotence -/
set_option autoImplicit false

namespace Verif
open Spec Props

/-! ## hash map lemmas -/

theorem valuesUnder_append {K V Q : Type} [DecidableEq Q] (borrow : K → Q) (q : Q) (a b : List (K × V)) :
    valuesUnder borrow q (a ++ b) = valuesUnder borrow q a ++ valuesUnder borrow q b := by
  induction a with
  | nil => rfl
  | cons p a ih =>
    obtain ⟨k, v⟩ := p
    by_cases h : borrow k = q <;> simp [valuesUnder, h, ih]

theorem mem_valuesUnder {K V Q : Type} [DecidableEq Q] {borrow : K → Q} {q : Q} {l : List (K × V)} {v : V} :
    v ∈ valuesUnder borrow q l ↔ ∃ p ∈ l, borrow p.1 = q ∧ p.2 = v := by
  induction l with
  | nil => simp [valuesUnder]
  | cons p l ih =>
    obtain ⟨k, w⟩ := p
    by_cases h : borrow k = q
    · simp [valuesUnder, h, ih, eq_comm]
    · simp [valuesUnder, h, ih]

theorem insert_norms {K V N : Type} [DecidableEq N] (norm : K → N) (k : K) (v : V) (m : HashMap K V) :
    (HashMap.insert norm k v m).map (fun p => norm p.1) =
      if norm k ∈ m.map (fun p => norm p.1) then m.map (fun p => norm p.1) else m.map (fun p => norm p.1) ++ [norm k] := by
  induction m with
  | nil => simp [HashMap.insert]
  | cons p m ih =>
    obtain ⟨k', v'⟩ := p
    simp only [HashMap.insert]
    by_cases h : norm k' = norm k
    · simp [h]
    · have h' : ¬ norm k = norm k' := fun e => h e.symm
      simp only [if_neg h, List.map_cons, ih, List.mem_cons, h', false_or]
      split <;> simp

theorem insert_nodup {K V N : Type} [DecidableEq N] (norm : K → N) (k : K) (v : V) (m : HashMap K V)
    (h : (m.map fun p => norm p.1).Nodup) : ((HashMap.insert norm k v m).map fun p => norm p.1).Nodup := by
  rw [insert_norms]
  split
  · exact h
  · rename_i hk
    rw [List.nodup_append]
    refine ⟨h, by simp, ?_⟩
    intro a ha b hb
    simp only [List.mem_singleton] at hb
    subst hb
    exact fun e => hk (e ▸ ha)

theorem extend_nodup {K V N : Type} [DecidableEq N] (norm : K → N) (m : HashMap K V) (es : List (K × V))
    (h : (m.map fun p => norm p.1).Nodup) : ((HashMap.extend norm m es).map fun p => norm p.1).Nodup := by
  induction es generalizing m with
  | nil => exact h
  | cons e es ih =>
    obtain ⟨k, v⟩ := e
    exact ih _ (insert_nodup norm k v m h)

theorem mem_insert {K V N : Type} [DecidableEq N] (norm : K → N) (k : K) (v : V) (m : HashMap K V) (p : K × V)
    (h : p ∈ HashMap.insert norm k v m) : p.2 = v ∨ p ∈ m := by
  induction m with
  | nil => simp [HashMap.insert] at h; simp [h]
  | cons x m ih =>
    obtain ⟨k', v'⟩ := x
    simp only [HashMap.insert] at h
    split at h
    · rcases List.mem_cons.mp h with rfl | h
      · exact .inl rfl
      · exact .inr (by simp [h])
    · rcases List.mem_cons.mp h with rfl | h
      · exact .inr (by simp)
      · rcases ih h with h | h
        · exact .inl h
        · exact .inr (by simp [h])

/-- Every value in an extended map was in the map or in the list. -/
theorem mem_extend {K V N : Type} [DecidableEq N] (norm : K → N) (m : HashMap K V) (es : List (K × V)) (p : K × V)
    (h : p ∈ HashMap.extend norm m es) : (∃ e ∈ es, e.2 = p.2) ∨ ∃ e ∈ m, e.2 = p.2 := by
  induction es generalizing m with
  | nil => exact .inr ⟨p, h, rfl⟩
  | cons e es ih =>
    obtain ⟨k, v⟩ := e
    rcases ih _ h with ⟨e, he, hp⟩ | ⟨e, he, hp⟩
    · exact .inl ⟨e, by simp [he], hp⟩
    · rcases mem_insert norm k v m e he with h' | h'
      · exact .inl ⟨(k, v), by simp, by rw [← hp, h']⟩
      · exact .inr ⟨e, h', hp⟩

theorem insert_append {K V N : Type} [DecidableEq N] (norm : K → N) (k : K) (v : V) (m : HashMap K V)
    (h : ∀ p ∈ m, norm p.1 ≠ norm k) : HashMap.insert norm k v m = m ++ [(k, v)] := by
  induction m with
  | nil => rfl
  | cons p m ih =>
    obtain ⟨k', v'⟩ := p
    have h1 : ¬ norm k' = norm k := h (k', v') (by simp)
    simp only [HashMap.insert, if_neg h1, List.cons_append, ih fun p hp => h p (by simp [hp])]

theorem extend_distinct {K V N : Type} [DecidableEq N] (norm : K → N) (m es : List (K × V))
    (h : ((m ++ es).map fun p => norm p.1).Nodup) : HashMap.extend norm m es = m ++ es := by
  induction es generalizing m with
  | nil => simp [HashMap.extend]
  | cons e es ih =>
    obtain ⟨k, v⟩ := e
    simp only [HashMap.extend]
    rw [insert_append norm k v m, ih]
    · simp
    · simpa using h
    · intro p hp he
      simp only [List.map_append, List.map_cons, List.nodup_append] at h
      exact h.2.2 (norm p.1) (List.mem_map.mpr ⟨p, hp, rfl⟩) (norm k) (by simp) he

theorem collect_distinct {K V N : Type} [DecidableEq N] (norm : K → N) (es : List (K × V))
    (h : (es.map fun p => norm p.1).Nodup) : HashMap.collect norm es = es := by
  simpa [HashMap.collect] using extend_distinct norm [] es (by simpa using h)

theorem lastWins_extend (m es : List (List Str × MapValues)) (h : (m.map Prod.fst).Nodup) :
    LastWins (m ++ es) (HashMap.extend id m es) := by
  refine ⟨?_, ?_⟩
  · have := extend_nodup (id : List Str → List Str) m es (by simpa using h)
    simpa using this
  · intro ls
    have := c34_extend_merged (id : List Str → List Str) m es ls
    simp only [KVP.extend, KVP.getSingle] at this
    rw [this, valuesUnder_append, List.getLast?_append, hashMap_get_values]
    have h1 := valuesUnder_length_le_one (id : List Str → List Str) ls m (by simpa using h)
    match hv : valuesUnder id ls m, h1 with
    | [], _ => simp
    | [v], _ => simp
    | _ :: _ :: _, h1 => simp at h1

theorem lastWins_collect (es : List (List Str × MapValues)) : LastWins es (HashMap.collect id es) := by
  simpa [HashMap.collect] using lastWins_extend [] es (by simp)

/-! ## combined values -/

theorem combinedAll_objects (l : List MapValues) (ls : List (List MapValues)) :
    combinedAll (some (.object l)) (ls.map .object) = some (.object (l ++ ls.flatten)) := by
  induction ls generalizing l with
  | nil => simp [combinedAll]
  | cons a ls ih =>
    have := ih (l ++ a)
    simpa [combinedAll, combined] using this

theorem extend_append {K V N : Type} [DecidableEq N] (norm : K → N) (m a b : List (K × V)) :
    HashMap.extend norm m (a ++ b) = HashMap.extend norm (HashMap.extend norm m a) b := by
  induction a generalizing m with
  | nil => rfl
  | cons e a ih => obtain ⟨k, v⟩ := e; exact ih _

theorem combinedAll_blocks (m : List (List Str × MapValues)) (bs : List VBlock) :
    combinedAll (some (.block (.merged m))) (bs.map .block) =
      some (.block (.merged (HashMap.extend id m (bs.flatMap KVP.entries)))) := by
  induction bs generalizing m with
  | nil => simp [combinedAll, HashMap.extend]
  | cons b bs ih =>
    have := ih (HashMap.extend id m b.entries)
    simpa [combinedAll, combined, KVP.extend, extend_append] using this

theorem all_objects {vs : List Value} (h : ∀ v ∈ vs, v.variant = .object) : ∃ ls : List (List MapValues), vs = ls.map Value.object := by
  induction vs with
  | nil => exact ⟨[], rfl⟩
  | cons v vs ih =>
    obtain ⟨ls, rfl⟩ := ih fun w hw => h w (by simp [hw])
    have := h v (by simp)
    cases v <;> simp [Value.variant] at this
    rename_i l
    exact ⟨l :: ls, rfl⟩

theorem all_blocks {vs : List Value} (h : ∀ v ∈ vs, v.variant = .block) : ∃ bs : List VBlock, vs = bs.map Value.block := by
  induction vs with
  | nil => exact ⟨[], rfl⟩
  | cons v vs ih =>
    obtain ⟨ls, rfl⟩ := ih fun w hw => h w (by simp [hw])
    have := h v (by simp)
    cases v <;> simp [Value.variant] at this
    rename_i l
    exact ⟨l :: ls, rfl⟩

theorem valuesUnder_pairwise {es : List (Key × Value)} (h : NoClash es) (q : Bool × Str) :
    (valuesUnder Key.norm q es).Pairwise MayShare := by
  induction es with
  | nil => simp [valuesUnder]
  | cons p es ih =>
    obtain ⟨k, v⟩ := p
    simp only [NoClash, List.pairwise_cons] at h
    by_cases hk : k.norm = q
    · rw [valuesUnder, if_pos hk, List.pairwise_cons]
      refine ⟨?_, ih h.2⟩
      intro w hw
      obtain ⟨p, hp, hq, rfl⟩ := mem_valuesUnder.mp hw
      exact h.1 p hp (hk.trans hq.symm)
    · rw [valuesUnder, if_neg hk]
      exact ih h.2

/-- A block value produced by merging is a hash map with distinct labels. -/
def BlockMerged (v : Value) : Prop := ∀ b, v = .block b → ∃ m, b = .merged m ∧ (m.map Prod.fst).Nodup

theorem merge_blockMerged {v w : Value} (h : v.merge = .ok w) : BlockMerged w := by
  intro b hb
  subst hb
  have hv := merge_variant h
  cases v <;> simp [Value.variant] at hv
  rename_i b'
  simp only [Value.merge] at h
  cases hr : Value.mergeBlock b' with
  | error e => simp [hr, Except.map] at h
  | ok es =>
    simp only [hr, Except.map, Except.ok.injEq, Value.block.injEq] at h
    exact ⟨_, h.symm, (lastWins_collect es).1⟩

theorem combinedAll_spec {vs : List Value} (hp : vs.Pairwise MayShare) (hb : ∀ v ∈ vs, BlockMerged v) :
    Combined vs (combinedAll none vs) := by
  match vs with
  | [] => exact .none
  | [v] => exact .single v
  | v :: w :: vs =>
    simp only [List.pairwise_cons] at hp
    have hvw := hp.1 w (by simp)
    rw [mayShare_iff] at hvw
    rcases hvw with ⟨h1, -⟩ | ⟨h1, -⟩
    · obtain ⟨ls, hls⟩ := all_objects (vs := v :: w :: vs) (by
        intro x hx
        rcases List.mem_cons.mp hx with rfl | hx
        · exact h1
        · have := (mayShare_iff _ _).mp (hp.1 x hx)
          rcases this with ⟨-, h⟩ | ⟨h, -⟩
          · exact h
          · rw [h1] at h; cases h)
      cases ls with
      | nil => cases hls
      | cons l ls =>
        rw [hls]
        have : combinedAll none ((l :: ls).map Value.object) = some (.object (l :: ls).flatten) := by
          have := combinedAll_objects l ls
          simpa [combinedAll, combined] using this
        rw [this]
        exact .objects (l :: ls) (by simp)
    · obtain ⟨bs, hbs⟩ := all_blocks (vs := v :: w :: vs) (by
        intro x hx
        rcases List.mem_cons.mp hx with rfl | hx
        · exact h1
        · have := (mayShare_iff _ _).mp (hp.1 x hx)
          rcases this with ⟨h, -⟩ | ⟨-, h⟩
          · rw [h1] at h; cases h
          · exact h)
      cases bs with
      | nil => cases hbs
      | cons b bs =>
        have hv : v = .block b := by simpa using (List.cons.inj hbs).1
        obtain ⟨m, rfl, hm⟩ := hb v (by simp) b hv
        rw [hbs]
        have : combinedAll none ((KVP.merged m :: bs).map Value.block) =
            some (.block (.merged (HashMap.extend id m (bs.flatMap KVP.entries)))) := by
          have := combinedAll_blocks m bs
          simpa [combinedAll, combined] using this
        rw [this]
        refine .blocks (KVP.merged m :: bs) _ (by simp) ?_
        simpa [KVP.entries] using lastWins_extend m (bs.flatMap KVP.entries) hm

/-! ## soundness -/

theorem addAll_spec {es m : List (Key × Value)} (hb : ∀ p ∈ es, BlockMerged p.2) (h : addAll [] es = .ok m) :
    (m.map fun p => p.1.norm).Nodup ∧ ∀ q, Combined (valuesUnder Key.norm q es) (HashMap.get Key.norm q m) := by
  refine ⟨addAll_nodup h (by simp), ?_⟩
  intro q
  rw [addAll_get h q]
  refine combinedAll_spec (valuesUnder_pairwise (addAll_exists.mp ⟨m, h⟩).1 q) ?_
  intro v hv
  obtain ⟨p, hp, -, rfl⟩ := mem_valuesUnder.mp hv
  exact hb p hp

theorem allPairs_right {α β : Type} {R : α → β → Prop} {l : List α} {l' : List β} (h : AllPairs R l l') :
    ∀ b ∈ l', ∃ a ∈ l, R a b := by
  induction h with
  | nil => simp
  | cons a b as bs h1 h2 ih =>
    intro x hx
    rcases List.mem_cons.mp hx with rfl | hx
    · exact ⟨a, by simp, h1⟩
    · obtain ⟨y, hy, h⟩ := ih x hx
      exact ⟨y, by simp [hy], h⟩

theorem except_map_eq {α β : Type} {x : Except ValueErr α} {f : α → β} {y : β} (h : x.map f = .ok y) :
    ∃ a, x = .ok a ∧ y = f a := by
  cases x with
  | error e => simp [Except.map] at h
  | ok a => exact ⟨a, rfl, by simpa [Except.map, eq_comm] using h⟩

theorem merge_sound : (∀ v w, Value.merge v = .ok w → Merges v w) ∧
    ∀ m n, Value.mergeMap m = .ok n → MergesMap m n := by
  have := Value.inductBoth (P := fun v => ∀ w, Value.merge v = .ok w → Merges v w)
    (Q := fun m => ∀ n, Value.mergeMap m = .ok n → MergesMap m n)
  apply this
  · intro v h1 h2 h3 w h
    have : w = v := by
      cases v <;> simp [Value.variant] at h1 h2 h3 <;> (simp only [Value.merge, Except.ok.injEq] at h; exact h.symm)
    subst this
    exact .scalar _ h1 h2 h3
  · intro l ih w h
    simp only [Value.merge] at h
    obtain ⟨l', h', rfl⟩ := except_map_eq h; replace h := h'; clear h'
    refine .list _ _ ?_
    replace h := mergeList_ok.mp h
    clear this
    induction h with
    | nil => exact .nil
    | cons a b as bs h1 h2 ih2 =>
      exact .cons _ _ _ _ (ih a (by simp) b h1) (ih2 fun v hv => ih v (by simp [hv]))
  · intro l ih w h
    simp only [Value.merge] at h
    obtain ⟨l', h', rfl⟩ := except_map_eq h; replace h := h'; clear h'
    refine .object _ _ ?_
    replace h := mergeMaps_ok.mp h
    clear this
    induction h with
    | nil => exact .nil
    | cons a b as bs h1 h2 ih2 =>
      exact .cons _ _ _ _ (ih a (by simp) b h1) (ih2 fun v hv => ih v (by simp [hv]))
  · intro b ih w h
    simp only [Value.merge, mergeBlock_eq] at h
    obtain ⟨es, h', rfl⟩ := except_map_eq h; replace h := h'; clear h'
    refine .block b es _ ?_ (lastWins_collect es)
    replace h := mergeBodies_ok.mp h
    clear this
    generalize b.entries = l at h ih
    induction h with
    | nil => exact .nil
    | cons a b as bs h1 h2 ih2 =>
      obtain ⟨k, v⟩ := a
      obtain ⟨k', w⟩ := b
      obtain ⟨rfl, h1⟩ := h1
      exact .cons _ _ _ _ _ (ih (k, v) (by simp) w h1) (ih2 fun v hv => ih v (by simp [hv]))
  · intro m ih n h
    cases m with
    | merged m =>
      simp only [Value.mergeMap, Except.ok.injEq] at h
      subst h
      exact .already m
    | unmerged es =>
      simp only [Value.mergeMap] at h
      obtain ⟨m, h', rfl⟩ := except_map_eq h
      obtain ⟨es', h1, h2⟩ := mergeEntries_ok.mp h'
      obtain ⟨h3, h4⟩ := addAll_spec (fun p hp => by
        obtain ⟨a, -, ha⟩ := allPairs_right h1 p hp
        exact merge_blockMerged ha.2) h2
      refine .unmerged es es' m ?_ h3 h4
      clear h h' h2 h3 h4 this
      simp only [KVP.entries] at ih
      induction h1 with
      | nil => exact .nil
      | cons a b as bs h1 h2 ih2 =>
        obtain ⟨k, v⟩ := a
        obtain ⟨k', w⟩ := b
        obtain ⟨rfl, h1⟩ := h1
        exact .cons _ _ _ _ _ (ih (k, v) (by simp) w h1) (ih2 fun v hv => ih v (by simp [hv]))

/-! ## errors -/

/-- The stored entries come from the entries processed so far. -/
structure FromPrefix (pre : List (Key × Value)) (acc : HashMap Key Value) : Prop where
  first : ∀ e ∈ acc, ∃ p1 a mid, pre = p1 ++ a :: mid ∧ a.1 = e.1 ∧ a.2.variant = e.2.variant ∧ ∀ p ∈ p1, p.1.norm ≠ e.1.norm
  all : ∀ p ∈ pre, p.1.norm ∈ acc.map fun e => e.1.norm

theorem mem_addEntry {m m' : HashMap Key Value} {k : Key} {v : Value} (h : addEntry m k v = .ok m') :
    ∀ e ∈ m', e ∈ m ∨ (∃ old, (e.1, old) ∈ m ∧ old.variant = e.2.variant) ∨
      (e = (k, v) ∧ k.norm ∉ m.map fun e => e.1.norm) := by
  induction m generalizing m' with
  | nil =>
    simp only [addEntry, Except.ok.injEq] at h
    subst h
    simp
  | cons p m ih =>
    obtain ⟨k', v'⟩ := p
    simp only [addEntry] at h
    split at h
    · rename_i hk
      obtain ⟨w, hw, rfl⟩ := except_map_eq h
      obtain ⟨hs, rfl⟩ := combineValues_ok.mp hw
      intro e he
      rcases List.mem_cons.mp he with rfl | he
      · refine .inr (.inl ⟨v', by simp, ?_⟩)
        simp only
        rw [combined_variant hs]
        rcases (mayShare_iff _ _).mp hs with ⟨a, b⟩ | ⟨a, b⟩ <;> rw [a, b]
      · exact .inl (by simp [he])
    · rename_i hk
      obtain ⟨r, hr, rfl⟩ := except_map_eq h
      intro e he
      rcases List.mem_cons.mp he with rfl | he
      · exact .inl (by simp)
      · rcases ih hr e he with h | ⟨old, h1, h2⟩ | ⟨h1, h2⟩
        · exact .inl (by simp [h])
        · exact .inr (.inl ⟨old, by simp [h1], h2⟩)
        · refine .inr (.inr ⟨h1, ?_⟩)
          have hne : ¬ k.norm = k'.norm := fun e => hk e.symm
          simp only [List.map_cons, List.mem_cons, not_or]
          exact ⟨hne, h2⟩

theorem fromPrefix_step {pre : List (Key × Value)} {acc acc' : HashMap Key Value} {k : Key} {v v' : Value}
    (h : FromPrefix pre acc) (hv : v'.variant = v.variant) (ha : addEntry acc k v' = .ok acc') :
    FromPrefix (pre ++ [(k, v)]) acc' := by
  constructor
  · intro e he
    rcases mem_addEntry ha e he with h' | ⟨old, h1, h2⟩ | ⟨rfl, h2⟩
    · obtain ⟨p1, a, mid, rfl, h1, h2, h3⟩ := h.first e h'
      exact ⟨p1, a, mid ++ [(k, v)], by simp, h1, h2, h3⟩
    · obtain ⟨p1, a, mid, rfl, g1, g2, g3⟩ := h.first _ h1
      exact ⟨p1, a, mid ++ [(k, v)], by simp, g1, by rw [g2]; exact h2, g3⟩
    · refine ⟨pre, (k, v), [], by simp, rfl, hv.symm, ?_⟩
      intro p hp hn
      exact h2 (hn ▸ h.all p hp)
  · intro p hp
    have hnorms := (addEntry_ok ha).2.2
    rcases List.mem_append.mp hp with hp | hp
    · have := h.all p hp
      rw [hnorms]
      split
      · exact this
      · exact List.mem_append.mpr (.inl this)
    · simp only [List.mem_singleton] at hp
      subst hp
      rw [hnorms]
      split
      · assumption
      · simp

theorem clashError_congr {k : Str} {a a' b b' : Value} {e : ValueErr} (ha : a.variant = a'.variant)
    (hb : b.variant = b'.variant) (h : ClashError k a b e) : ClashError k a' b' e := by
  cases h with
  | illegal h1 h2 => rw [ha]; exact .illegal _ _ (ha ▸ h1) (ha ▸ h2)
  | object h1 h2 => rw [hb]; exact .object _ _ (ha ▸ h1) (hb ▸ h2)
  | block h1 h2 => rw [hb]; exact .block _ _ (ha ▸ h1) (hb ▸ h2)

theorem mergeEntries_error_aux {pre es : List (Key × Value)} {acc : HashMap Key Value} {e : ValueErr}
    (hp : FromPrefix pre acc) (h : Value.mergeEntries acc es = .error e) :
    (∃ p ∈ es, p.2.merge = .error e) ∨ Clash (pre ++ es) e := by
  induction es generalizing pre acc with
  | nil => simp [Value.mergeEntries] at h
  | cons p es ih =>
    obtain ⟨k, v⟩ := p
    simp only [Value.mergeEntries] at h
    cases hv : v.merge with
    | error e' =>
      simp only [hv, Except.error.injEq] at h
      subst h
      exact .inl ⟨(k, v), by simp, hv⟩
    | ok w =>
      simp only [hv] at h
      cases ha : addEntry acc k w with
      | error e' =>
        simp only [ha, Except.error.injEq] at h
        subst h
        obtain ⟨k', old, h1, h2, -, h4⟩ := addEntry_error ha
        obtain ⟨p1, a, mid, rfl, g1, g2, g3⟩ := hp.first _ h1
        refine .inr ⟨p1, a, mid, (k, v), es, by simp, by rw [g1]; exact h2, ?_, ?_⟩
        · intro p hp; rw [g1]; exact g3 p hp
        · rw [g1]
          exact clashError_congr g2.symm (merge_variant hv) h4
      | ok acc' =>
        simp only [ha] at h
        rcases ih (fromPrefix_step hp (merge_variant hv) ha) h with ⟨p, hp', h'⟩ | h'
        · exact .inl ⟨p, by simp [hp'], h'⟩
        · exact .inr (by simpa using h')

theorem mergeEntries_error {es : List (Key × Value)} {e : ValueErr} (h : Value.mergeEntries [] es = .error e) :
    (∃ p ∈ es, p.2.merge = .error e) ∨ Clash es e := by
  have := mergeEntries_error_aux (pre := []) (acc := []) ⟨by simp, by simp⟩ h
  simpa using this

theorem except_map_error {α β : Type} {x : Except ValueErr α} {f : α → β} {e : ValueErr} (h : x.map f = .error e) :
    x = .error e := by
  cases x with
  | error e => simpa [Except.map] using h
  | ok a => simp [Except.map] at h

theorem mergeList_error {l : List Value} {e : ValueErr} (h : Value.mergeList l = .error e) :
    ∃ v ∈ l, v.merge = .error e := by
  induction l with
  | nil => simp [Value.mergeList] at h
  | cons v l ih =>
    simp only [Value.mergeList] at h
    cases hv : v.merge with
    | error e' => simp only [hv, Except.error.injEq] at h; subst h; exact ⟨v, by simp, hv⟩
    | ok w =>
      simp only [hv] at h
      obtain ⟨x, hx, h⟩ := ih (except_map_error h)
      exact ⟨x, by simp [hx], h⟩

theorem mergeMaps_error {l : List MapValues} {e : ValueErr} (h : Value.mergeMaps l = .error e) :
    ∃ v ∈ l, Value.mergeMap v = .error e := by
  induction l with
  | nil => simp [Value.mergeMaps] at h
  | cons v l ih =>
    simp only [Value.mergeMaps] at h
    cases hv : Value.mergeMap v with
    | error e' => simp only [hv, Except.error.injEq] at h; subst h; exact ⟨v, by simp, hv⟩
    | ok w =>
      simp only [hv] at h
      obtain ⟨x, hx, h⟩ := ih (except_map_error h)
      exact ⟨x, by simp [hx], h⟩

theorem mergeBodies_error {l : List (List Str × MapValues)} {e : ValueErr} (h : Value.mergeBodies l = .error e) :
    ∃ v ∈ l, Value.mergeMap v.2 = .error e := by
  induction l with
  | nil => simp [Value.mergeBodies] at h
  | cons v l ih =>
    obtain ⟨k, v⟩ := v
    simp only [Value.mergeBodies] at h
    cases hv : Value.mergeMap v with
    | error e' => simp only [hv, Except.error.injEq] at h; subst h; exact ⟨(k, v), by simp, hv⟩
    | ok w =>
      simp only [hv] at h
      obtain ⟨x, hx, h⟩ := ih (except_map_error h)
      exact ⟨x, by simp [hx], h⟩

theorem merge_error : (∀ v : Value, ∀ e, v.merge = .error e → ∃ es, MapIn v es ∧ Clash es e) ∧
    ∀ m : MapValues, ∀ e, Value.mergeMap m = .error e → ∃ es, MapInMap m es ∧ Clash es e := by
  apply Value.inductBoth
  · intro v h1 h2 h3 e h
    cases v <;> simp [Value.variant] at h1 h2 h3 <;> simp [Value.merge] at h
  · intro l ih e h
    simp only [Value.merge] at h
    obtain ⟨v, hv, h⟩ := mergeList_error (except_map_error h)
    obtain ⟨es, h1, h2⟩ := ih v hv e h
    exact ⟨es, .list _ v _ hv h1, h2⟩
  · intro l ih e h
    simp only [Value.merge] at h
    obtain ⟨v, hv, h⟩ := mergeMaps_error (except_map_error h)
    obtain ⟨es, h1, h2⟩ := ih v hv e h
    exact ⟨es, .object _ v _ hv h1, h2⟩
  · intro b ih e h
    simp only [Value.merge, mergeBlock_eq] at h
    obtain ⟨v, hv, h⟩ := mergeBodies_error (except_map_error h)
    obtain ⟨es, h1, h2⟩ := ih v hv e h
    exact ⟨es, .block _ v _ hv h1, h2⟩
  · intro m ih e h
    cases m with
    | merged m => simp [Value.mergeMap] at h
    | unmerged l =>
      simp only [Value.mergeMap] at h
      rcases mergeEntries_error (except_map_error h) with ⟨p, hp, h⟩ | h
      · obtain ⟨es, h1, h2⟩ := ih p hp e h
        exact ⟨es, .entry _ p _ hp h1, h2⟩
      · exact ⟨l, .here l, h⟩

/-! ## fixed points -/

theorem mergeMap_merged {m n : MapValues} (h : Value.mergeMap m = .ok n) : ∃ x, n = .merged x := by
  cases m with
  | merged m => simp only [Value.mergeMap, Except.ok.injEq] at h; exact ⟨m, h.symm⟩
  | unmerged l =>
    simp only [Value.mergeMap] at h
    obtain ⟨x, -, rfl⟩ := except_map_eq h
    exact ⟨x, rfl⟩

theorem allPairs_self {α : Type} {R : α → α → Prop} {l : List α} : AllPairs R l l ↔ ∀ a ∈ l, R a a := by
  induction l with
  | nil => exact ⟨fun _ _ h => (by cases h), fun _ => .nil⟩
  | cons a l ih =>
    constructor
    · intro h
      cases h with
      | cons _ _ _ _ h1 h2 => exact List.forall_mem_cons.mpr ⟨h1, ih.mp h2⟩
    · intro h
      rw [List.forall_mem_cons] at h
      exact .cons _ _ _ _ h.1 (ih.mpr h.2)

/-- A block set is unchanged by merging if its labels are distinct and its bodies are unchanged. -/
theorem merge_block_fixed {m : List (List Str × MapValues)} (hn : (m.map Prod.fst).Nodup)
    (hb : ∀ p ∈ m, Value.mergeMap p.2 = .ok p.2) : (Value.block (.merged m)).merge = .ok (.block (.merged m)) := by
  have h1 : Value.mergeBodies m = .ok m := mergeBodies_ok.mpr (allPairs_self.mpr fun p hp => ⟨rfl, hb p hp⟩)
  simp only [Value.merge, Value.mergeBlock, h1, Except.map]
  rw [collect_distinct id m (by simpa using hn)]

theorem merge_object_fixed {l : List MapValues} :
    (Value.object l).merge = .ok (.object l) ↔ ∀ m ∈ l, Value.mergeMap m = .ok m := by
  simp only [Value.merge]
  constructor
  · intro h
    obtain ⟨l', h, h'⟩ := except_map_eq h
    cases h'
    exact allPairs_self.mp (mergeMaps_ok.mp h)
  · intro h
    rw [mergeMaps_ok.mpr (allPairs_self.mpr h)]
    rfl

theorem merge_idem {v w : Value} (h : v.merge = .ok w) : w.merge = .ok w := by
  have := Value.induct (P := fun v => ∀ w, Value.merge v = .ok w → w.merge = .ok w) (Q := fun _ => True)
  revert h
  revert w
  revert v
  apply this
  · intro v h1 h2 h3 w h
    have : w = v := by
      cases v <;> simp [Value.variant] at h1 h2 h3 <;> (simp only [Value.merge, Except.ok.injEq] at h; exact h.symm)
    subst this
    exact h
  · intro l ih w h
    simp only [Value.merge] at h
    obtain ⟨l', h', rfl⟩ := except_map_eq h; replace h := h'; clear h'
    simp only [Value.merge]
    rw [mergeList_ok.mpr (allPairs_self.mpr fun b hb => ?_)]
    · rfl
    · obtain ⟨a, ha, h'⟩ := allPairs_right (mergeList_ok.mp h) b hb
      exact ih a ha b h'
  · intro l ih w h
    simp only [Value.merge] at h
    obtain ⟨l', h', rfl⟩ := except_map_eq h; replace h := h'; clear h'
    rw [merge_object_fixed]
    intro b hb
    obtain ⟨a, ha, h'⟩ := allPairs_right (mergeMaps_ok.mp h) b hb
    obtain ⟨x, rfl⟩ := mergeMap_merged h'
    rfl
  · intro b ih w h
    simp only [Value.merge, mergeBlock_eq] at h
    obtain ⟨es, h', rfl⟩ := except_map_eq h; replace h := h'; clear h'
    refine merge_block_fixed (lastWins_collect es).1 ?_
    intro p hp
    rcases mem_extend id [] es p hp with ⟨e, he, hpe⟩ | ⟨e, he, -⟩
    · obtain ⟨a, ha, -, h'⟩ := allPairs_right (mergeBodies_ok.mp h) e he
      rw [← hpe]
      obtain ⟨x, hx⟩ := mergeMap_merged h'
      rw [hx]
      rfl
    · cases he
  · intros; trivial

/-- `Value::merge` on a block, as written in value.rs:422-429: merge the bodies, then `Block::new_merged`. -/
theorem Value.merge_block (b : VBlock) :
    (Value.block b).merge = match Value.mergeBodies b.entries with
      | .error e => .error e
      | .ok es => (VBlock.newMerged es).map .block := by
  simp only [Value.merge, mergeBlock_eq]
  cases h : Value.mergeBodies b.entries with
  | error e => rfl
  | ok es =>
    have key : ∀ acc, VBlock.mergeInto acc es = .ok (HashMap.extend id acc es) := by
      have hm := mergeBodies_ok.mp h
      have hfix : ∀ p ∈ es, MapValues.merge p.2 = .ok p.2 := by
        intro p hp
        obtain ⟨a, -, -, h'⟩ := allPairs_right hm p hp
        obtain ⟨x, hx⟩ := mergeMap_merged h'
        rw [hx]
        rfl
      clear hm h
      induction es with
      | nil => intro acc; rfl
      | cons p es ih =>
        intro acc
        obtain ⟨k, v⟩ := p
        have h1 : MapValues.merge v = .ok v := hfix (k, v) (by simp)
        simp only [VBlock.mergeInto, h1, HashMap.extend]
        exact ih (fun p hp => hfix p (by simp [hp])) _
    simp [VBlock.newMerged, key, Except.map, HashMap.collect]

/-- Adding entries with new, distinct keys appends them. -/
theorem addAll_distinct (m es : List (Key × Value)) (h : ((m ++ es).map fun p => p.1.norm).Nodup) :
    addAll m es = .ok (m ++ es) := by
  have hadd : ∀ (m : List (Key × Value)) (k : Key) (v : Value), k.norm ∉ m.map (fun p => p.1.norm) →
      addEntry m k v = .ok (m ++ [(k, v)]) := by
    intro m k v
    induction m with
    | nil => intro _; rfl
    | cons p m ih =>
      obtain ⟨k', v'⟩ := p
      intro hk
      simp only [List.map_cons, List.mem_cons, not_or] at hk
      have : ¬ k'.norm = k.norm := fun e => hk.1 e.symm
      simp [addEntry, this, ih hk.2, Except.map]
  induction es generalizing m with
  | nil => simp [addAll]
  | cons p es ih =>
    obtain ⟨k, v⟩ := p
    have hk : k.norm ∉ m.map (fun p => p.1.norm) := by
      intro hmem
      simp only [List.map_append, List.map_cons, List.nodup_append] at h
      exact h.2.2 k.norm hmem k.norm (by simp) rfl
    simp only [addAll, hadd m k v hk]
    rw [ih (m ++ [(k, v)]) (by simpa using h)]
    simp

/-- A property of values that is kept when values are combined holds of everything in the map. -/
theorem addAll_forall {F : Value → Prop} (hc : ∀ old v, F old → F v → MayShare old v → F (combined (some old) v))
    {m m' es : List (Key × Value)} (hm : ∀ p ∈ m, F p.2) (hes : ∀ p ∈ es, F p.2) (h : addAll m es = .ok m') :
    ∀ p ∈ m', F p.2 := by
  have hadd : ∀ (m m' : List (Key × Value)) (k : Key) (v : Value), (∀ p ∈ m, F p.2) → F v → addEntry m k v = .ok m' →
      ∀ p ∈ m', F p.2 := by
    intro m m' k v
    induction m generalizing m' with
    | nil =>
      intro _ hv h
      simp only [addEntry, Except.ok.injEq] at h
      subst h
      simpa using hv
    | cons p m ih =>
      obtain ⟨k', v'⟩ := p
      intro hm hv h
      rw [List.forall_mem_cons] at hm
      simp only [addEntry] at h
      split at h
      · obtain ⟨w, hw, rfl⟩ := except_map_eq h
        obtain ⟨hs, rfl⟩ := combineValues_ok.mp hw
        exact List.forall_mem_cons.mpr ⟨hc _ _ hm.1 hv hs, hm.2⟩
      · obtain ⟨r, hr, rfl⟩ := except_map_eq h
        exact List.forall_mem_cons.mpr ⟨hm.1, ih r hm.2 hv hr⟩
  induction es generalizing m with
  | nil => simp only [addAll, Except.ok.injEq] at h; subst h; exact hm
  | cons p es ih =>
    obtain ⟨k, v⟩ := p
    rw [List.forall_mem_cons] at hes
    simp only [addAll] at h
    cases ha : addEntry m k v with
    | error e => simp [ha] at h
    | ok m1 =>
      simp only [ha] at h
      exact ih (hadd m m1 k v hm hes.1 ha) hes.2 h

theorem combined_fixed (old v : Value) (h1 : old.merge = .ok old) (h2 : v.merge = .ok v) (hs : MayShare old v) :
    (combined (some old) v).merge = .ok (combined (some old) v) := by
  cases hs with
  | objects a b =>
    simp only [combined]
    rw [merge_object_fixed] at h1 h2 ⊢
    intro m hm
    rcases List.mem_append.mp hm with h | h
    · exact h1 m h
    · exact h2 m h
  | blocks a b =>
    obtain ⟨ma, rfl, hna⟩ := merge_blockMerged h1 a rfl
    obtain ⟨mb, rfl, hnb⟩ := merge_blockMerged h2 b rfl
    simp only [combined, KVP.extend, KVP.entries]
    have hbody : ∀ m : List (List Str × MapValues), (Value.block (.merged m)).merge = .ok (.block (.merged m)) →
        ∀ p ∈ m, Value.mergeMap p.2 = .ok p.2 := by
      intro m hm p hp
      simp only [Value.merge, Value.mergeBlock] at hm
      obtain ⟨es, he, he'⟩ := except_map_eq hm
      have hm' : m = HashMap.collect id es := by simpa using he'
      rw [hm'] at hp
      rcases mem_extend id [] es p hp with ⟨e, hee, hpe⟩ | ⟨e, hee, -⟩
      · obtain ⟨c, -, -, hc⟩ := allPairs_right (mergeBodies_ok.mp he) e hee
        rw [← hpe]
        obtain ⟨x, hx⟩ := mergeMap_merged hc
        rw [hx]
        rfl
      · cases hee
    refine merge_block_fixed (lastWins_extend ma mb hna).1 ?_
    intro p hp
    rcases mem_extend id ma mb p hp with ⟨e, he, hpe⟩ | ⟨e, he, hpe⟩
    · rw [← hpe]; exact hbody mb h2 e he
    · rw [← hpe]; exact hbody ma h1 e he

end Verif
