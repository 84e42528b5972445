import Verif.Proofs.BlocksOrder
/-! # Blocks indexed by type -/
set_option autoImplicit false

namespace Verif
open Spec

/-! ## hash order -/

theorem sameTypes_refl (m : Blocks) : SameTypes m m := by
  induction m with
  | nil => exact .nil
  | cons p m ih => exact .cons _ _ _ _ _ (same_refl _) ih

theorem sameTypes_keys {m m' : Blocks} (h : SameTypes m m') : (m.map Prod.fst).Perm (m'.map Prod.fst) := by
  induction h with
  | nil => exact .refl _
  | cons t b b' m m' _ _ i => simpa using i
  | swap p q m m' _ i => simp only [List.map_cons]; exact (List.Perm.swap _ _ _).trans ((i.cons _).cons _)
  | trans a b c _ _ i j => exact i.trans j

theorem sameTypes_nodup {m m' : Blocks} (h : SameTypes m m') (hn : (m.map fun p => p.1.str).Nodup) :
    (m'.map fun p => p.1.str).Nodup := by
  have := (sameTypes_keys h).map CowStr.str
  simp only [List.map_map] at this
  exact (this.nodup_iff).1 hn

theorem sameTypes_get {m m' : Blocks} (h : SameTypes m m') (hn : (m.map fun p => p.1.str).Nodup) (t : Str) :
    (HashMap.get CowStr.str t m = none ∧ HashMap.get CowStr.str t m' = none) ∨
    ∃ c c', HashMap.get CowStr.str t m = some c ∧ HashMap.get CowStr.str t m' = some c' ∧ SameBlocks c c' := by
  induction h with
  | nil => exact .inl ⟨rfl, rfl⟩
  | cons k b b' m m' hb _ i =>
    simp only [HashMap.get]
    split
    · exact .inr ⟨_, _, rfl, rfl, hb⟩
    · exact i (List.nodup_cons.1 hn).2
  | swap p q m m' hm i =>
    obtain ⟨k, b⟩ := p; obtain ⟨k', b'⟩ := q
    simp only [List.map_cons, List.nodup_cons, List.mem_cons, not_or] at hn
    simp only [HashMap.get]
    by_cases e1 : k.str = t
    · have e2 : k'.str ≠ t := by rw [← e1]; exact fun h => hn.1.1 h.symm
      simp only [e1, e2, if_true, if_false]
      exact .inr ⟨_, _, rfl, rfl, same_refl _⟩
    · by_cases e2 : k'.str = t
      · simp only [e1, e2, if_true, if_false]
        exact .inr ⟨_, _, rfl, rfl, same_refl _⟩
      · simp only [e1, e2, if_false]
        exact i hn.2.2
  | trans a b c hab hbc i j =>
    rcases i hn with ⟨i1, i2⟩ | ⟨x, y, i1, i2, i3⟩
    · rcases j (sameTypes_nodup hab hn) with ⟨j1, j2⟩ | ⟨y, z, j1, j2, j3⟩
      · exact .inl ⟨i1, j2⟩
      · rw [i2] at j1; cases j1
    · rcases j (sameTypes_nodup hab hn) with ⟨j1, j2⟩ | ⟨y', z, j1, j2, j3⟩
      · rw [i2] at j1; cases j1
      · rw [i2] at j1; injection j1 with j1; subst j1
        exact .inr ⟨x, z, i1, j2, same_trans i3 j3⟩

theorem blocks_flatIter_eq (m : Blocks) :
    Blocks.flatIter m = m.flatMap fun p => p.2.flatIter.map fun q => (p.1.str, q.1, q.2) := by
  induction m with
  | nil => rfl
  | cons p m ih => obtain ⟨k, b⟩ := p; simp [Blocks.flatIter, ih]

theorem blocks_lenBlocks (m : Blocks) : Blocks.lenBlocks m = (Blocks.flatIter m).length := by
  have : ∀ (m : Blocks) (acc : Nat), m.foldl (fun acc p => p.2.lenBlocks + acc) acc = acc + (Blocks.flatIter m).length := by
    intro m
    induction m with
    | nil => intro acc; rfl
    | cons p m ih =>
      intro acc
      obtain ⟨k, b⟩ := p
      rw [List.foldl_cons, ih, Blocks.flatIter, List.length_append, List.length_map, lenBlocks_eq]
      dsimp only
      omega
  rw [Blocks.lenBlocks, this]; simp

theorem sameTypes_flatIter {m m' : Blocks} (h : SameTypes m m') : (Blocks.flatIter m).Perm (Blocks.flatIter m') := by
  induction h with
  | nil => exact .refl _
  | cons t b b' m m' hb _ i => simp only [Blocks.flatIter]; exact ((same_flatIter hb).map _).append i
  | swap p q m m' _ i =>
    obtain ⟨k, b⟩ := p; obtain ⟨k', b'⟩ := q
    simp only [Blocks.flatIter]
    rw [← List.append_assoc, ← List.append_assoc]
    exact List.perm_append_comm.append i
  | trans a b c _ _ i j => exact i.trans j

/-! ## append -/

theorem blocks_append_get (m : Blocks) (b : Block) (t : Str) :
    HashMap.get CowStr.str t (m.append b) =
      if b.type.str = t then
        some (((HashMap.get CowStr.str t m).getD .default).append b.labels b.body)
      else HashMap.get CowStr.str t m := by
  rw [Blocks.append]
  rcases upsert_cases (norm := CowStr.str) b.type (BlockBody.default.append b.labels b.body)
    (fun x => x.append b.labels b.body) m with ⟨pre, k', v, post, rfl, h1, h2, h3⟩ | ⟨h1, h2⟩
  · rw [h3]
    split
    · rename_i ht
      subst ht
      rw [← h1] at h2 ⊢
      rw [hget_middle (borrow := CowStr.str) h2, hget_middle (borrow := CowStr.str) h2]
      rfl
    · rename_i ht
      exact hget_middle_ne (borrow := CowStr.str) (by rw [h1]; exact ht)
  · rw [h2, hget_append]
    by_cases ht : b.type.str = t
    · subst ht
      rw [get_none.2 h1]
      simp [HashMap.get]
    · cases HashMap.get CowStr.str t m <;> simp [HashMap.get, ht]

theorem blocks_append_nodup {m : Blocks} (b : Block) (hn : (m.map fun p => p.1.str).Nodup) :
    ((m.append b).map fun p => p.1.str).Nodup := by
  rw [Blocks.append]
  rcases upsert_cases (norm := CowStr.str) b.type (BlockBody.default.append b.labels b.body)
    (fun x => x.append b.labels b.body) m with ⟨pre, k', v, post, rfl, h1, h2, h3⟩ | ⟨h1, h2⟩
  · rw [h3]; simpa using hn
  · rw [h2, List.map_append, List.nodup_append]
    refine ⟨hn, by simp, ?_⟩
    intro a ha c hc
    obtain ⟨p, hp, rfl⟩ := List.mem_map.1 ha
    simp only [List.map_cons, List.map_nil, List.mem_singleton] at hc
    subst hc
    exact h1 p hp

theorem blocks_append_bodies (m : Blocks) (b : Block) :
    ((Blocks.flatIter (m.append b)).map fun q => (q.1, q.2.2)).Perm
      ((b.type.str, b.body) :: (Blocks.flatIter m).map fun q => (q.1, q.2.2)) := by
  have hmap : ∀ (s : Str) (c : BlockBody), (c.flatIter.map fun q => (s, q.1, q.2)).map (fun q => (q.1, q.2.2)) =
      (c.flatIter.map Prod.snd).map fun x => (s, x) := by
    intro s c; simp [List.map_map, Function.comp_def]
  rw [Blocks.append]
  rcases upsert_cases (norm := CowStr.str) b.type (BlockBody.default.append b.labels b.body)
    (fun x => x.append b.labels b.body) m with ⟨pre, k', v, post, rfl, h1, h2, h3⟩ | ⟨h1, h2⟩
  · rw [h3]
    simp only [blocks_flatIter_eq, List.map_append, List.flatMap_append, List.flatMap_cons, hmap]
    have h4 := (append_bodies (ls := b.labels) (x := b.body) (b := v)).map fun x => (k'.str, x)
    refine (List.Perm.append_left _ (List.Perm.append_right _ h4)).trans ?_
    rw [h1, List.map_cons, List.cons_append]
    exact List.perm_middle
  · rw [h2]
    simp only [blocks_flatIter_eq, List.map_append, List.flatMap_append, List.flatMap_cons, List.flatMap_nil,
      List.append_nil, hmap]
    have h4 := (append_bodies (ls := b.labels) (x := b.body) (b := .default)).map fun x => (b.type.str, x)
    refine (List.Perm.append_left _ h4).trans ?_
    simp only [BlockBody.default, BlockBody.flatIter, List.map_nil, List.map_cons]
    exact List.perm_append_comm (l₂ := [_])

/-! ## histories -/

theorem ofType_append (t : Str) (a b : List Block) : ofType t (a ++ b) = ofType t a ++ ofType t b := by
  simp [ofType]

theorem builtBlocks_get {m : Blocks} {h : List Block} (hm : BuiltBlocks m h) :
    (m.map fun p => p.1.str).Nodup ∧ ∀ t,
      (HashMap.get CowStr.str t m = none ∧ ofType t h = []) ∨
      ∃ b, HashMap.get CowStr.str t m = some b ∧ Built b (ofType t h) ∧ ofType t h ≠ [] := by
  induction hm with
  | empty => exact ⟨by simp, fun t => .inl ⟨rfl, rfl⟩⟩
  | append m h b _ ih =>
    refine ⟨blocks_append_nodup b ih.1, fun t => ?_⟩
    rw [blocks_append_get, ofType_append]
    split
    · rename_i ht
      have he : ofType t [b] = [(b.labels, b.body)] := by simp [ofType, ht]
      rw [he]
      refine .inr ⟨_, rfl, .append _ _ _ _ ?_, by simp⟩
      rcases ih.2 t with ⟨h1, h2⟩ | ⟨c, h1, h2, -⟩
      · rw [h1, h2]; exact .default
      · rw [h1]; exact h2
    · rename_i ht
      have he : ofType t [b] = [] := by simp [ofType, ht]
      rw [he, List.append_nil]
      exact ih.2 t
  | reorder m m' h _ hs ih =>
    refine ⟨sameTypes_nodup hs ih.1, fun t => ?_⟩
    rcases sameTypes_get hs ih.1 t with ⟨h1, h2⟩ | ⟨c, c', h1, h2, h3⟩
    · rcases ih.2 t with ⟨_, h4⟩ | ⟨c, h4, _⟩
      · exact .inl ⟨h2, h4⟩
      · rw [h1] at h4; cases h4
    · rcases ih.2 t with ⟨h4, _⟩ | ⟨c, h4, h5, h6⟩
      · rw [h1] at h4; cases h4
      · rw [h1] at h4; injection h4 with h4; subst h4
        exact .inr ⟨c', h2, .reorder _ _ _ h5 h3, h6⟩

theorem builtBlocks_bodies {m : Blocks} {h : List Block} (hm : BuiltBlocks m h) :
    ((Blocks.flatIter m).map fun q => (q.1, q.2.2)).Perm (h.map fun b => (b.type.str, b.body)) := by
  induction hm with
  | empty => exact .refl _
  | append m h b _ ih =>
    rw [List.map_append]
    exact (blocks_append_bodies m b).trans ((ih.cons _).trans
      (by simpa using (List.perm_append_comm (l₁ := [(b.type.str, b.body)]))))
  | reorder m m' h _ hs ih => exact ((sameTypes_flatIter hs).map _).symm.trans ih

theorem built_extend {b : BlockBody} {h l : List (List BlockLabel × Body)} (hb : Built b h) :
    Built (b.extend l) (h ++ l) := by
  induction l generalizing b h with
  | nil => simpa [BlockBody.extend] using hb
  | cons p l ih =>
    obtain ⟨ls, x⟩ := p
    have := ih (.append _ _ ls x hb)
    simpa [BlockBody.extend] using this

theorem builtBlocks_extend {m : Blocks} {h l : List Block} (hm : BuiltBlocks m h) :
    BuiltBlocks (m.extend l) (h ++ l) := by
  induction l generalizing m h with
  | nil => simpa [Blocks.extend] using hm
  | cons b l ih =>
    have := ih (.append _ _ b hm)
    simpa [Blocks.extend] using this

/-! ## Blocks::new -/

/-- groups are maximal runs -/
theorem groupBlocks_spec (bs : List Block) :
    (groupBlocks bs).flatMap Prod.snd = bs ∧
    (∀ g ∈ groupBlocks bs, g.2 ≠ [] ∧ ∀ b ∈ g.2, b.type.str = g.1.str) ∧
    (∀ g, (groupBlocks bs).head? = some g → ∃ b, bs.head? = some b ∧ g.1 = b.type) ∧
    (∀ pre g g' post, groupBlocks bs = pre ++ g :: g' :: post → g.1.str ≠ g'.1.str) := by
  induction bs with
  | nil => simp [groupBlocks]
  | cons b bs ih =>
    obtain ⟨h1, h2, h3, h4⟩ := ih
    rw [groupBlocks]
    split
    · rename_i hg
      rw [hg] at h1
      refine ⟨by simpa using h1, by simp, by simp, ?_⟩
      intro pre g g' post he
      have := congrArg List.length he
      simp at this
      omega
    · rename_i t run gs hg
      rw [hg] at h1 h2 h3 h4
      split
      · rename_i ht
        refine ⟨by simpa using h1, ?_, by simp, ?_⟩
        · intro g hgm
          rcases List.mem_cons.1 hgm with rfl | hgm
          · refine ⟨by simp, fun c hc => ?_⟩
            rcases List.mem_cons.1 hc with rfl | hc
            · rfl
            · have := (h2 (t, run) (by simp)).2 c hc
              simpa [ht] using this
          · exact h2 g (by simp [hgm])
        · intro pre g g' post he
          cases pre with
          | nil =>
            simp only [List.nil_append, List.cons.injEq] at he
            obtain ⟨rfl, rfl⟩ := he
            have := h4 [] (t, run) g' post rfl
            simpa [ht] using this
          | cons p pre =>
            simp only [List.cons_append, List.cons.injEq] at he
            exact h4 ((t, run) :: pre) g g' post (by simp [he.2])
      · rename_i ht
        refine ⟨by simpa using h1, ?_, by simp, ?_⟩
        · intro g hgm
          rcases List.mem_cons.1 hgm with rfl | hgm
          · simp
          · exact h2 g hgm
        · intro pre g g' post he
          cases pre with
          | nil =>
            simp only [List.nil_append, List.cons.injEq] at he
            obtain ⟨rfl, rfl, rfl⟩ := he
            exact ht
          | cons p pre =>
            simp only [List.cons_append, List.cons.injEq] at he
            exact h4 pre g g' post he.2

theorem insert_get {K V N : Type} [DecidableEq N] {norm : K → N} (k : K) (v : V) (m : HashMap K V) (q : N) :
    HashMap.get norm q (HashMap.insert norm k v m) = if norm k = q then some v else HashMap.get norm q m := by
  induction m with
  | nil => simp [HashMap.insert, HashMap.get]
  | cons p m ih =>
    obtain ⟨k', v'⟩ := p
    simp only [HashMap.insert]
    split
    · rename_i h
      simp only [HashMap.get, h]
      split <;> simp_all
    · rename_i h
      simp only [HashMap.get]
      rw [ih]
      split
      · rename_i h'
        have : ¬ norm k = q := fun e => h (by rw [h', e])
        simp [this]
      · rfl

/-- what the loop leaves for a type: the last run -/
theorem insertGroups_get (t : Str) : ∀ (gs : List (CowStr × List Block)) (m : Blocks),
    ((∀ g ∈ gs, g.1.str ≠ t) ∧ HashMap.get CowStr.str t (Blocks.insertGroups m gs) = HashMap.get CowStr.str t m) ∨
    ∃ pre g post, gs = pre ++ g :: post ∧ g.1.str = t ∧ (∀ g' ∈ post, g'.1.str ≠ t) ∧
      HashMap.get CowStr.str t (Blocks.insertGroups m gs) =
        some (BlockBody.fromIter (g.2.map fun b => (b.labels, b.body))) := by
  intro gs
  induction gs with
  | nil => intro m; exact .inl ⟨by simp, rfl⟩
  | cons g gs ih =>
    intro m
    obtain ⟨t', run⟩ := g
    simp only [Blocks.insertGroups]
    rcases ih (HashMap.insert CowStr.str t' (BlockBody.fromIter (run.map fun b => (b.labels, b.body))) m) with
      ⟨h1, h2⟩ | ⟨pre, g, post, rfl, h1, h2, h3⟩
    · rw [h2, insert_get]
      by_cases ht : t'.str = t
      · rw [if_pos ht]
        exact .inr ⟨[], (t', run), gs, rfl, ht, h1, rfl⟩
      · rw [if_neg ht]
        exact .inl ⟨by simpa [ht] using h1, rfl⟩
    · exact .inr ⟨(t', run) :: pre, g, post, rfl, h1, h2, h3⟩

theorem new_get (bs : List Block) (t : Str) :
    ((∀ b ∈ bs, b.type.str ≠ t) ∧ HashMap.get CowStr.str t (Blocks.new bs) = none) ∨
    ∃ run, LastRun t bs run ∧ HashMap.get CowStr.str t (Blocks.new bs) =
      some (BlockBody.fromIter (run.map fun b => (b.labels, b.body))) := by
  obtain ⟨h1, h2, -, h4⟩ := groupBlocks_spec bs
  rcases insertGroups_get t (groupBlocks bs) [] with ⟨i1, i2⟩ | ⟨pre, g, post, i1, i2, i3, i4⟩
  · refine .inl ⟨fun b hb => ?_, i2⟩
    rw [← h1] at hb
    obtain ⟨g, hg, hb⟩ := List.mem_flatMap.1 hb
    rw [(h2 g hg).2 b hb]; exact i1 g hg
  · refine .inr ⟨g.2, ⟨pre.flatMap Prod.snd, post.flatMap Prod.snd, ?_, ?_, ?_, ?_, ?_⟩, i4⟩
    · rw [← h1, i1]; simp [List.append_assoc]
    · exact (h2 g (by rw [i1]; simp)).1
    · intro b hb; rw [(h2 g (by rw [i1]; simp)).2 b hb, i2]
    · intro b hb
      obtain ⟨g', hg, hb⟩ := List.mem_flatMap.1 hb
      rw [(h2 g' (by rw [i1]; simp [hg])).2 b hb]; exact i3 g' hg
    · intro b hb
      rcases List.eq_nil_or_concat pre with rfl | ⟨pre', g', rfl⟩
      · cases hb
      · simp only [List.concat_eq_append, List.append_assoc, List.cons_append, List.nil_append] at i1 hb
        have hne := h4 pre' g' g post i1
        have hg' := h2 g' (by rw [i1]; simp)
        have hm : b ∈ g'.2 := by
          rw [List.flatMap_append, List.flatMap_cons, List.flatMap_nil, List.append_nil] at hb
          rw [List.getLast?_append] at hb
          cases hl : g'.2.getLast? with
          | none => exact absurd (List.getLast?_eq_none_iff.1 hl) hg'.1
          | some c =>
            rw [hl] at hb
            simp only [Option.some_or, Option.some.injEq] at hb
            subst hb
            exact List.mem_of_getLast? hl
        rw [hg'.2 b hm, ← i2]; exact hne

theorem lastRun_unique {t : Str} {bs r r' : List Block} (h : LastRun t bs r) (h' : LastRun t bs r') : r = r' := by
  obtain ⟨pre, post, e, h1, h2, h3, h4⟩ := h
  obtain ⟨pre', post', e', h1', h2', h3', h4'⟩ := h'
  have hpost : ∀ {pre post r pre' post' r' : List Block}, pre ++ r ++ post = pre' ++ r' ++ post' → r ≠ [] →
      (∀ b ∈ r, b.type.str = t) → (∀ b ∈ post', b.type.str ≠ t) → post'.length ≤ post.length := by
    intro pre post r pre' post' r' e hne hr hp
    have hlen := congrArg List.length e
    simp only [List.length_append] at hlen
    rcases Nat.lt_or_ge post.length post'.length with hlt | hge
    · exfalso
      obtain ⟨r0, x, rfl⟩ : ∃ r0 x, r = r0 ++ [x] := by
        rcases List.eq_nil_or_concat r with rfl | ⟨r0, x, h⟩
        · exact absurd rfl hne
        · exact ⟨r0, x, by simpa using h⟩
      have hx : x ∈ post' := by
        have e1 : (pre ++ r0) ++ ([x] ++ post) = (pre' ++ r') ++ post' := by simpa using e
        rcases List.append_eq_append_iff.1 e1 with ⟨as, ha, hb⟩ | ⟨as, ha, hb⟩
        · cases as with
          | nil => simp at hb; rw [← hb]; simp
          | cons y as =>
            have := congrArg List.length hb
            simp at this
            omega
        · rw [hb]; simp
      exact hp x hx (hr x (by simp))
    · exact hge
  have l1 := hpost (e.symm.trans e') h1 h2 h3'
  have l2 := hpost (e'.symm.trans e) h1' h2' h3
  have e2 : (pre ++ r) ++ post = (pre' ++ r') ++ post' := e.symm.trans e'
  obtain ⟨e3, rfl⟩ := List.append_inj' e2 (by omega)
  -- now compare the runs from the left
  rcases List.append_eq_append_iff.1 e3 with ⟨as, ha, hb⟩ | ⟨as, ha, hb⟩
  · rcases List.eq_nil_or_concat as with rfl | ⟨as', x, hx⟩
    · simpa using hb
    · rw [List.concat_eq_append] at hx
      subst hx
      exfalso
      have hl : pre'.getLast? = some x := by rw [ha]; simp [List.getLast?_append]
      exact h4' x hl (h2 x (by rw [hb]; simp))
  · rcases List.eq_nil_or_concat as with rfl | ⟨as', x, hx⟩
    · simpa using hb.symm
    · rw [List.concat_eq_append] at hx
      subst hx
      exfalso
      have hl : pre.getLast? = some x := by rw [ha]; simp [List.getLast?_append]
      exact h4 x hl (h2' x (by rw [hb]; simp))

/-! ## adjacent types -/

theorem extend_blocks_append (m : Blocks) (a b : List Block) : m.extend (a ++ b) = (m.extend a).extend b := by
  induction a generalizing m with
  | nil => rfl
  | cons x a ih => simp [Blocks.extend, ih]

theorem insert_new {K V N : Type} [DecidableEq N] {norm : K → N} {k : K} {v : V} {m : HashMap K V}
    (h : ∀ p ∈ m, norm p.1 ≠ norm k) : HashMap.insert norm k v m = m ++ [(k, v)] := by
  induction m with
  | nil => rfl
  | cons p m ih =>
    obtain ⟨k', v'⟩ := p
    have := h (k', v') (by simp)
    simp only at this
    simp [HashMap.insert, this, ih fun p hp => h p (by simp [hp])]

theorem extend_run_occ {m : Blocks} {k : CowStr} {c : BlockBody} {run : List Block}
    (hr : ∀ b ∈ run, b.type.str = k.str) (hm : ∀ p ∈ m, p.1.str ≠ k.str) :
    Blocks.extend (m ++ [(k, c)]) run = m ++ [(k, c.extend (run.map fun b => (b.labels, b.body)))] := by
  induction run generalizing c with
  | nil => rfl
  | cons b run ih =>
    rw [Blocks.extend]
    have hb := hr b (by simp)
    have : Blocks.append (m ++ [(k, c)]) b = m ++ [(k, c.append b.labels b.body)] := by
      rw [Blocks.append]
      clear ih
      induction m with
      | nil => simp [HashMap.upsert, hb]
      | cons p m ihm =>
        obtain ⟨k', v'⟩ := p
        have h' := hm (k', v') (by simp)
        simp only at h'
        simp [HashMap.upsert, hb, h']
        simpa using ihm fun p hp => hm p (by simp [hp])
    rw [this, ih fun b hb => hr b (by simp [hb])]
    rfl

theorem extend_run_new {m : Blocks} {k : CowStr} {run : List Block} {b : Block}
    (hh : run.head? = some b) (hk : b.type = k) (hr : ∀ b ∈ run, b.type.str = k.str) (hm : ∀ p ∈ m, p.1.str ≠ k.str) :
    Blocks.extend m run = m ++ [(k, BlockBody.fromIter (run.map fun b => (b.labels, b.body)))] := by
  cases run with
  | nil => cases hh
  | cons c run =>
    simp only [List.head?_cons, Option.some.injEq] at hh
    subst hh
    subst hk
    have : Blocks.append m c = m ++ [(c.type, BlockBody.default.append c.labels c.body)] := by
      rw [Blocks.append]
      rcases upsert_cases (norm := CowStr.str) c.type (BlockBody.default.append c.labels c.body)
        (fun x => x.append c.labels c.body) m with ⟨pre, k', v, post, rfl, h1, h2, h3⟩ | ⟨h1, h2⟩
      · exact absurd h1 (hm (k', v) (by simp))
      · exact h2
    rw [Blocks.extend, this, extend_run_occ (fun b hb => hr b (by simp [hb])) hm]
    rfl

theorem insertGroups_eq_extend : ∀ (gs : List (CowStr × List Block)) (m : Blocks),
    (∀ g ∈ gs, (∃ b, g.2.head? = some b ∧ b.type = g.1) ∧ ∀ b ∈ g.2, b.type.str = g.1.str) →
    (gs.map fun g => g.1.str).Nodup → (∀ p ∈ m, ∀ g ∈ gs, p.1.str ≠ g.1.str) →
    Blocks.insertGroups m gs = m.extend (gs.flatMap Prod.snd) := by
  intro gs
  induction gs with
  | nil => intros; rfl
  | cons g gs ih =>
    intro m hg hn hm
    obtain ⟨t, run⟩ := g
    obtain ⟨⟨b, hb, hbt⟩, hr⟩ := hg (t, run) (by simp)
    have hm' : ∀ p ∈ m, p.1.str ≠ t.str := fun p hp => hm p hp (t, run) (by simp)
    simp only [List.map_cons, List.nodup_cons] at hn
    rw [Blocks.insertGroups, insert_new hm', List.flatMap_cons, extend_blocks_append, extend_run_new hb hbt hr hm']
    refine ih _ (fun g h => hg g (by simp [h])) hn.2 ?_
    intro p hp g hgm
    rcases List.mem_append.1 hp with hp | hp
    · exact hm p hp g (by simp [hgm])
    · simp only [List.mem_singleton] at hp
      subst hp
      exact fun e => hn.1 (List.mem_map.2 ⟨g, hgm, e.symm⟩)

theorem groupBlocks_head (bs : List Block) : ∀ g ∈ groupBlocks bs, ∃ b, g.2.head? = some b ∧ b.type = g.1 := by
  induction bs with
  | nil => simp [groupBlocks]
  | cons b bs ih =>
    rw [groupBlocks]
    split
    · simp
    · rename_i t run gs hg
      rw [hg] at ih
      split
      · intro g hgm
        rcases List.mem_cons.1 hgm with rfl | hgm
        · exact ⟨b, rfl, rfl⟩
        · exact ih g (by simp [hgm])
      · intro g hgm
        rcases List.mem_cons.1 hgm with rfl | hgm
        · exact ⟨b, rfl, rfl⟩
        · exact ih g hgm

theorem new_eq_extend {bs : List Block} (h : TypesAdjacent bs) : Blocks.new bs = Blocks.extend [] bs := by
  obtain ⟨h1, h2, -, h4⟩ := groupBlocks_spec bs
  rw [Blocks.new, insertGroups_eq_extend (groupBlocks bs) [] ?_ ?_ (by simp), h1]
  · intro g hg; exact ⟨groupBlocks_head bs g hg, (h2 g hg).2⟩
  · -- two groups of the same type would have another between them
    rw [List.nodup_iff_pairwise_ne, List.pairwise_map]
    rw [List.pairwise_iff_getElem]
    intro i j hi hj hij he
    -- the group after i
    generalize hgs : groupBlocks bs = gs at *
    have hsplit : gs = gs.take i ++ gs[i] :: gs.drop (i + 1) := by
      rw [List.getElem_cons_drop]; exact (List.take_append_drop i gs).symm
    have hj' : j - (i + 1) < (gs.drop (i + 1)).length := by simp; omega
    have hsplit2 : gs.drop (i + 1) = (gs.drop (i + 1)).take (j - (i + 1)) ++ gs[j] :: gs.drop (j + 1) := by
      have e : gs[j] = (gs.drop (i + 1))[j - (i + 1)] := by
        rw [List.getElem_drop]; congr 1; omega
      rw [e]
      have : gs.drop (j + 1) = (gs.drop (i + 1)).drop (j - (i + 1) + 1) := by
        rw [List.drop_drop]; congr 1; omega
      rw [this, List.getElem_cons_drop]
      exact (List.take_append_drop _ _).symm
    generalize gs.take i = A at *
    generalize (gs.drop (i + 1)).take (j - (i + 1)) = M at *
    rw [hsplit2] at hsplit
    generalize gs.drop (j + 1) = Z at *
    generalize hgi : gs[i] = gi at *
    generalize hgj : gs[j] = gj at *
    clear hgi hgj hsplit2 hj'
    subst hsplit
    have hgi := h2 gi (by simp)
    have hgj := h2 gj (by simp)
    cases M with
    | nil => exact h4 A gi gj Z rfl he
    | cons g M =>
      have hne := h4 A gi g (M ++ gj :: Z) rfl
      have hg := h2 g (by simp)
      -- last of gi, first of gj
      obtain ⟨r0, a, hr⟩ : ∃ r0 x, gi.2 = r0 ++ [x] := by
        rcases List.eq_nil_or_concat gi.2 with h | ⟨r0, x, h⟩
        · exact absurd h hgi.1
        · exact ⟨r0, x, by simpa using h⟩
      obtain ⟨c, r1, hr1⟩ : ∃ c r1, gj.2 = c :: r1 := by
        cases hh : gj.2 with
        | nil => exact absurd hh hgj.1
        | cons c r1 => exact ⟨c, r1, rfl⟩
      obtain ⟨b, r2, hr2⟩ : ∃ c r1, g.2 = c :: r1 := by
        cases hh : g.2 with
        | nil => exact absurd hh hg.1
        | cons c r1 => exact ⟨c, r1, rfl⟩
      have ha : a.type.str = gi.1.str := hgi.2 a (by rw [hr]; simp)
      have hc : c.type.str = gj.1.str := hgj.2 c (by rw [hr1]; simp)
      have hb : b.type.str = g.1.str := hg.2 b (by rw [hr2]; simp)
      have := h (A.flatMap Prod.snd ++ r0) a ((g :: M).flatMap Prod.snd) c (r1 ++ Z.flatMap Prod.snd)
        (by rw [← h1]; simp [hr, hr1]) (by rw [ha, hc, he]) b (by simp [hr2])
      exact hne (by rw [← ha, ← hb, this])

end Verif
