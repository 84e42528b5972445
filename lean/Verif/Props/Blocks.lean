import Verif.Proofs.BlocksTypes
/-! # Blocks indexed by type and labels: C37–C43 -/
set_option autoImplicit false

namespace Verif.Props
open Verif Spec

/-! ## sample blocks -/

/-- a string label -/
abbrev sl (s : String) : BlockLabel := .stringLiteral s.toList
/-- an identifier label -/
abbrev il (s : String) : BlockLabel := .identifier (.borrowed s.toList)
/-- a body with one attribute, to tell bodies apart -/
abbrev bodyOf (s : String) : Body := [.attribute (.borrowed s.toList) .null]
/-- a block -/
abbrev blk (t : String) (ls : List BlockLabel) (s : String) : Block := ⟨.borrowed t.toList, ls, bodyOf s⟩

/-! ## C37 -/

/-- C37: appending adds exactly the given body (one more block, all others kept), whatever the structure so far. -/
theorem c37_append (b : BlockBody) (ls : List BlockLabel) (x : Body) :
    (b.append ls x).lenBlocks = b.lenBlocks + 1 ∧
    ((b.append ls x).flatIter.map Prod.snd).Perm (x :: b.flatIter.map Prod.snd) := by
  refine ⟨?_, append_bodies⟩
  have := (append_bodies (ls := ls) (x := x) (b := b)).length_eq
  simpa [lenBlocks_eq] using this

/-- C37: after any history of appends and in any hash order, the stored bodies are exactly those appended. -/
theorem c37_block_body_history {b : BlockBody} {h : List (List BlockLabel × Body)} (hb : Built b h) :
    b.lenBlocks = h.length ∧ (b.flatIter.map Prod.snd).Perm (h.map Prod.snd) := by
  refine ⟨?_, built_bodies hb⟩
  have := (built_bodies hb).length_eq
  simpa [lenBlocks_eq] using this

/-- C37: the same for `Blocks`: the stored (type, body) pairs are exactly those of the blocks appended. -/
theorem c37_history {m : Blocks} {h : List Block} (hm : BuiltBlocks m h) :
    Blocks.lenBlocks m = h.length ∧
    ((Blocks.flatIter m).map fun q => (q.1, q.2.2)).Perm (h.map fun b => (b.type.str, b.body)) := by
  refine ⟨?_, builtBlocks_bodies hm⟩
  have := (builtBlocks_bodies hm).length_eq
  simpa [blocks_lenBlocks] using this

/-- C37: `extend` is appending one after another. -/
theorem c37_extend {m : Blocks} {h l : List Block} (hm : BuiltBlocks m h) : BuiltBlocks (m.extend l) (h ++ l) :=
  builtBlocks_extend hm

/-- C37: `BlockBody::extend` and `from_iter` likewise. -/
theorem c37_extend_body {b : BlockBody} {h l : List (List BlockLabel × Body)} (hb : Built b h) :
    Built (b.extend l) (h ++ l) ∧ Built (BlockBody.fromIter l) l :=
  ⟨built_extend hb, by simpa [BlockBody.fromIter] using built_extend (l := l) Built.default⟩

/-- three blocks: two types, with and without labels, one in a swapped hash order -/
example : ∃ m, BuiltBlocks m [blk "a" [sl "x"] "1", blk "b" [] "2", blk "a" [] "3"] ∧ Blocks.lenBlocks m = 3 ∧
    (Blocks.flatIter m).map (fun q => (q.1, q.2.1)) =
      [("b".toList, []), ("a".toList, []), ("a".toList, ["x".toList])] := by
  refine ⟨_, .reorder _ _ _ (builtBlocks_extend (l := [blk "a" [sl "x"] "1", blk "b" [] "2", blk "a" [] "3"]) .empty)
    (.swap _ _ _ _ .nil), rfl, rfl⟩

/-! ## C38 -/

/-- C38: a block appended to `BlockBody` is found under its full label path, after the ones already there, unless
labels get lost; all other paths are unaffected. If labels are lost, the full path leads nowhere. -/
theorem c38_block_body {b : BlockBody} {h : List (List BlockLabel × Body)} (hb : Built b h) (ls : List BlockLabel)
    (x : Body) (hc : ConsistentLabels (h ++ [(ls, x)])) :
    (¬ Lost b ls →
      (∃ n, (b.append ls x).get (ls.map BlockLabel.text) = some n ∧
        n.getEmpty = bodiesAt b (ls.map BlockLabel.text) ++ [x]) ∧
      ∀ ts, ts ≠ ls.map BlockLabel.text → bodiesAt (b.append ls x) ts = bodiesAt b ts) ∧
    (Lost b ls → (b.append ls x).get (ls.map BlockLabel.text) = none) := by
  have hu := built_uniqueTexts (.append b h ls x hb) hc
  have hk := append_bodiesAt hu
  refine ⟨fun hl => ⟨?_, fun ts hts => ?_⟩, ?_⟩
  · have := hk.1 hl (ls.map BlockLabel.text)
    rw [if_pos rfl] at this
    cases hg : (b.append ls x).get (ls.map BlockLabel.text) with
    | none =>
      rw [show bodiesAt (b.append ls x) (ls.map BlockLabel.text) = [] by rw [bodiesAt, hg]] at this
      have := congrArg List.length this
      simp at this
    | some n =>
      refine ⟨n, rfl, ?_⟩
      rw [← this, bodiesAt, hg]
  · rw [hk.1 hl ts, if_neg hts, List.append_nil]
  · rintro ⟨q, l, r, e, m, rfl, hr, ha, hm⟩
    exact (hk.2 q l r e m rfl ha hm (built_uniqueLabels hb)).2 hr

/-- C38: where a block goes whose labels get lost: under the path up to and including the first label not there yet;
all other paths are unaffected. -/
theorem c38_lost_place {b : BlockBody} {h : List (List BlockLabel × Body)} (hb : Built b h)
    (q r : List BlockLabel) (l : BlockLabel) (e : List Body) (m : List (BlockLabel × BlockBody))
    (x : Body) (hc : ConsistentLabels (h ++ [(q ++ l :: r, x)])) (ha : At b q (.labels e m))
    (hm : ∀ p ∈ m, p.1.norm ≠ l.norm) :
    ∀ ts, bodiesAt (b.append (q ++ l :: r) x) ts =
      bodiesAt b ts ++ if ts = (q ++ [l]).map BlockLabel.text then [x] else [] :=
  ((append_bodiesAt (built_uniqueTexts (.append b h _ x hb) hc)).2 q l r e m rfl ha hm (built_uniqueLabels hb)).1

/-- C38: no labels are lost when the block has at most one, or when it is the first, or while no block so far has
labels. -/
theorem c38_not_lost {b : BlockBody} {h : List (List BlockLabel × Body)} (hb : Built b h) (ls : List BlockLabel)
    (hl : ls.length ≤ 1 ∨ ∀ p ∈ h, p.1 = []) : ¬ Lost b ls := by
  rcases hl with hl | hl
  · rintro ⟨q, l, r, e, m, rfl, hr, -, -⟩
    cases r with
    | nil => exact hr rfl
    | cons => simp at hl; omega
  · have : ∃ bs, b = .body bs := by
      induction hb with
      | default => exact ⟨_, rfl⟩
      | append b h ls x _ ih =>
        obtain ⟨bs, rfl⟩ := ih fun p hp => hl p (by simp [hp])
        have : ls = [] := hl (ls, x) (by simp)
        subst this
        exact ⟨_, rfl⟩
      | reorder b b' h _ hs ih =>
        obtain ⟨bs, rfl⟩ := ih hl
        cases hs; exact ⟨_, rfl⟩
    obtain ⟨bs, rfl⟩ := this
    exact lost_body

/-- C38: what is found under a path stays there, in order, whatever is appended later. -/
theorem c38_kept {b : BlockBody} {h : List (List BlockLabel × Body)} (hb : Built b h) (ls : List BlockLabel)
    (x : Body) (hc : ConsistentLabels (h ++ [(ls, x)])) (ts : List Str) :
    bodiesAt b ts <+: bodiesAt (b.append ls x) ts := by
  by_cases hl : Lost b ls
  · obtain ⟨q, l, r, e, m, rfl, hr, ha, hm⟩ := hl
    rw [c38_lost_place hb q r l e m x hc ha hm]
    exact List.prefix_append _ _
  · have hu := built_uniqueTexts (.append b h ls x hb) hc
    rw [(append_bodiesAt hu).1 hl ts]
    exact List.prefix_append _ _

/-- C38: for `Blocks`: after `append(block)`, `get(type, labels)` finds the block unless labels get lost among the
blocks of its type. -/
theorem c38_blocks {m : Blocks} {h : List Block} (hm : BuiltBlocks m h) (b : Block)
    (hc : ConsistentLabels (ofType b.type.str (h ++ [b]))) :
    ((∀ c, m.get b.type.str [] = some c → ¬ Lost c b.labels) →
      ∃ n, (m.append b).get b.type.str (b.labels.map BlockLabel.text) = some n ∧ b.body ∈ n.getEmpty) ∧
    ((∃ c, m.get b.type.str [] = some c ∧ Lost c b.labels) →
      (m.append b).get b.type.str (b.labels.map BlockLabel.text) = none) := by
  have hof : ofType b.type.str (h ++ [b]) = ofType b.type.str h ++ [(b.labels, b.body)] := by
    simp [ofType]
  rw [hof] at hc
  have hget : ∀ c, m.get b.type.str [] = some c ↔ HashMap.get CowStr.str b.type.str m = some c := by
    intro c
    simp only [Blocks.get]
    cases HashMap.get CowStr.str b.type.str m <;> simp [BlockBody.get]
  have happ : ∀ c, (HashMap.get CowStr.str b.type.str m).getD .default = c →
      (m.append b).get b.type.str (b.labels.map BlockLabel.text) =
        (c.append b.labels b.body).get (b.labels.map BlockLabel.text) := by
    intro c hc
    simp only [Blocks.get, blocks_append_get, if_pos, hc]
  rcases (builtBlocks_get hm).2 b.type.str with ⟨h1, h2⟩ | ⟨c, h1, h2, -⟩
  · rw [happ .default (by rw [h1]; rfl)]
    rw [h2] at hc
    have := c38_block_body .default b.labels b.body hc
    refine ⟨fun _ => ?_, fun ⟨c, hc, _⟩ => by rw [hget, h1] at hc; cases hc⟩
    obtain ⟨n, hn, he⟩ := (this.1 (c38_not_lost .default _ (.inr (by simp)))).1
    exact ⟨n, hn, by rw [he]; simp⟩
  · rw [happ c (by rw [h1]; rfl)]
    have := c38_block_body h2 b.labels b.body hc
    constructor
    · intro hl
      obtain ⟨n, hn, he⟩ := (this.1 (hl c ((hget c).2 h1))).1
      exact ⟨n, hn, by rw [he]; simp⟩
    · rintro ⟨c', hc', hl⟩
      rw [hget, h1] at hc'
      injection hc' with hc'
      subst hc'
      exact this.2 hl

/-- C38 does not hold in general: two `resource`-like blocks with two labels each, the second with a new first label;
the second cannot be found under its labels, but under the first of them. -/
theorem c38_counterexample :
    let m := Blocks.extend [] [blk "resource" [sl "vm", sl "a"] "1", blk "resource" [sl "disk", sl "b"] "2"]
    BuiltBlocks m [blk "resource" [sl "vm", sl "a"] "1", blk "resource" [sl "disk", sl "b"] "2"] ∧
    m.get "resource".toList ["disk".toList, "b".toList] = none ∧
    (m.get "resource".toList ["disk".toList]).map BlockBody.getEmpty = some [bodyOf "2"] ∧
    (m.get "resource".toList ["vm".toList, "a".toList]).map BlockBody.getEmpty = some [bodyOf "1"] :=
  ⟨builtBlocks_extend .empty, rfl, rfl, rfl⟩

example : ConsistentLabels [([sl "vm", sl "a"], bodyOf "1"), ([sl "vm", il "b"], bodyOf "2")] := by
  simp [ConsistentLabels, BlockLabel.text, BlockLabel.norm, CowStr.borrowed]

/-- a block with two labels, the first of which is there, is found -/
example : ∃ b, Built b [([sl "vm", sl "a"], bodyOf "1")] ∧ ¬ Lost b [sl "vm", il "b"] ∧
    ((b.append [sl "vm", il "b"] (bodyOf "2")).get ["vm".toList, "b".toList]).map BlockBody.getEmpty =
      some [bodyOf "2"] := by
  refine ⟨_, .append _ _ _ _ .default, ?_, rfl⟩
  show ¬ Lost (.labels [] [(sl "vm", .labels [] [(sl "a", .body [bodyOf "1"])])]) _
  simp [lost_cons, BlockLabel.norm]

/-! ## C39 -/

/-- C39: what `Blocks::new` holds for each type: the blocks of the last run of consecutive blocks of that type, added
one after another; nothing if there is none. The last run is unique (`c39_last_run_unique`). -/
theorem c39_new (bs : List Block) (t : Str) :
    ((∀ b ∈ bs, b.type.str ≠ t) ∧ (Blocks.new bs).get t [] = none) ∨
    ∃ run, LastRun t bs run ∧
      (Blocks.new bs).get t [] = some (BlockBody.fromIter (run.map fun b => (b.labels, b.body))) := by
  have hget : ∀ m : Blocks, m.get t [] = HashMap.get CowStr.str t m := by
    intro m
    simp only [Blocks.get]
    cases HashMap.get CowStr.str t m <;> simp [BlockBody.get]
  rw [hget]
  exact new_get bs t

/-- C39: there is one last run at most, so `c39_new` determines the result. -/
theorem c39_last_run_unique {t : Str} {bs r r' : List Block} (h : LastRun t bs r) (h' : LastRun t bs r') : r = r' :=
  lastRun_unique h h'

/-- C39: if blocks of the same type are adjacent, `Blocks::new` is the same as appending them all. -/
theorem c39_adjacent {bs : List Block} (h : TypesAdjacent bs) :
    BuiltBlocks (Blocks.new bs) bs ∧ Blocks.lenBlocks (Blocks.new bs) = bs.length ∧
    ((Blocks.flatIter (Blocks.new bs)).map fun q => (q.1, q.2.2)).Perm (bs.map fun b => (b.type.str, b.body)) := by
  have hb : BuiltBlocks (Blocks.new bs) bs := by
    rw [new_eq_extend h]
    simpa using builtBlocks_extend (l := bs) .empty
  exact ⟨hb, (c37_history hb).1, (c37_history hb).2⟩

/-- C39 does not hold in general: of two blocks of a type with another block between them only the last is kept. -/
theorem c39_counterexample :
    let bs := [blk "a" [] "1", blk "b" [] "2", blk "a" [] "3"]
    Blocks.lenBlocks (Blocks.new bs) = 2 ∧
    ((Blocks.new bs).get "a".toList []).map BlockBody.getEmpty = some [bodyOf "3"] := ⟨rfl, rfl⟩

example : TypesAdjacent [blk "a" [] "1", blk "a" [sl "x"] "2", blk "b" [] "3"] ∧
    Blocks.lenBlocks (Blocks.new [blk "a" [] "1", blk "a" [sl "x"] "2", blk "b" [] "3"]) = 3 := by
  refine ⟨?_, rfl⟩
  intro pre a mid c post h he b hb
  have hlen := congrArg List.length h
  simp at hlen
  match pre, mid with
  | [], [] => cases hb
  | [], [m1] =>
    simp at h
    obtain ⟨rfl, rfl, rfl, -⟩ := h
    simp [CowStr.borrowed] at he
  | [], m1 :: m2 :: m => simp at hlen; omega
  | [p], [] => cases hb
  | [p], m1 :: m => simp at hlen; omega
  | p :: q :: pre, _ => simp at hlen; omega

/-! ## C40 -/

/-- C40: `label_lens` is the increasing list of the lengths of the label paths that `flat_iter` yields, for every
`BlockBody` with a non-empty history. -/
theorem c40_label_lens {b : BlockBody} {h : List (List BlockLabel × Body)} (hb : Built b h) (hne : h ≠ []) :
    b.labelLens.Pairwise (· < ·) ∧ ∀ n, n ∈ b.labelLens ↔ ∃ q ∈ b.flatIter, q.1.length = n := by
  refine ⟨labelLens_sorted b, ?_⟩
  rcases built_filled hb with ⟨h1, -⟩ | ⟨-, hf⟩
  · exact absurd h1 hne
  · exact labelLens_mem b hf

/-- C40: the same for `Blocks`, for each type present. -/
theorem c40_blocks {m : Blocks} {h : List Block} (hm : BuiltBlocks m h) (t : Str) (lens : List Nat) :
    (t, lens) ∈ m.labelLens ↔
      (∃ b ∈ h, b.type.str = t) ∧ lens.Pairwise (· < ·) ∧
      ∀ n, n ∈ lens ↔ ∃ q ∈ Blocks.flatIter m, q.1 = t ∧ q.2.1.length = n := by
  obtain ⟨hn, hg⟩ := builtBlocks_get hm
  -- the entry of a type determines the items of that type
  have hitems : ∀ k c, (k, c) ∈ m → ∀ q, (∃ q' ∈ Blocks.flatIter m, q'.1 = k.str ∧ q' = (k.str, q)) ↔ q ∈ c.flatIter := by
    intro k c hk q
    constructor
    · rintro ⟨q', hq, -, rfl⟩
      rw [blocks_flatIter_eq] at hq
      simp only [List.mem_flatMap, List.mem_map, Prod.mk.injEq] at hq
      obtain ⟨p, hp, q', hq', h1, h2⟩ := hq
      have e1 := get_of_mem (borrow := CowStr.str) hp hn
      have e2 := get_of_mem (borrow := CowStr.str) hk hn
      rw [h1, e2] at e1
      injection e1 with e1
      subst e1
      rw [← h2]; exact hq'
    · intro hq
      refine ⟨(k.str, q), ?_, rfl, rfl⟩
      rw [blocks_flatIter_eq]
      simp only [List.mem_flatMap, List.mem_map]
      exact ⟨(k, c), hk, q, hq, rfl⟩
  have hkey : ∀ k c, (k, c) ∈ m → ∀ n, n ∈ c.labelLens ↔ ∃ q ∈ Blocks.flatIter m, q.1 = k.str ∧ q.2.1.length = n := by
    intro k c hk n
    rcases hg k.str with ⟨h1, -⟩ | ⟨b, h1, h2, h3⟩
    · rw [get_of_mem (borrow := CowStr.str) (p := (k, c)) hk hn] at h1; cases h1
    · rw [get_of_mem (borrow := CowStr.str) (p := (k, c)) hk hn] at h1
      injection h1 with h1
      subst h1
      rw [(c40_label_lens h2 h3).2]
      constructor
      · rintro ⟨q, hq, rfl⟩
        obtain ⟨q', h1, h2, rfl⟩ := (hitems k c hk q).2 hq
        exact ⟨_, h1, h2, rfl⟩
      · rintro ⟨q', h1, h2, rfl⟩
        obtain ⟨t', q⟩ := q'
        simp only at h2
        subst h2
        exact ⟨q, (hitems k c hk q).1 ⟨_, h1, rfl, rfl⟩, rfl⟩
  constructor
  · intro hl
    obtain ⟨⟨k, c⟩, hk, he⟩ := List.mem_map.1 hl
    simp only [Prod.mk.injEq] at he
    obtain ⟨rfl, rfl⟩ := he
    refine ⟨?_, labelLens_sorted c, hkey k c hk⟩
    rcases hg k.str with ⟨h1, -⟩ | ⟨b, h1, h2, h3⟩
    · rw [get_of_mem (borrow := CowStr.str) (p := (k, c)) hk hn] at h1; cases h1
    · cases hof : ofType k.str h with
      | nil => exact absurd hof h3
      | cons x l =>
        have : x ∈ ofType k.str h := by rw [hof]; simp
        simp only [ofType, List.mem_map, List.mem_filter, decide_eq_true_eq] at this
        obtain ⟨b, ⟨hb, ht⟩, -⟩ := this
        exact ⟨b, hb, ht⟩
  · rintro ⟨⟨b, hb, rfl⟩, hs, hl⟩
    rcases hg b.type.str with ⟨-, h2⟩ | ⟨c, h1, -, -⟩
    · have : (b.labels, b.body) ∈ ofType b.type.str h := by
        simp only [ofType, List.mem_map, List.mem_filter, decide_eq_true_eq]
        exact ⟨b, ⟨hb, rfl⟩, rfl⟩
      rw [h2] at this; cases this
    · obtain ⟨k, hk, he⟩ := get_some h1
      refine List.mem_map.2 ⟨(k, c), hk, ?_⟩
      simp only [Prod.mk.injEq]
      refine ⟨he, sorted_ext (labelLens_sorted c) hs fun n => ?_⟩
      rw [hkey k c hk, hl, he]

example : (BlockBody.fromIter [([sl "a", sl "b"], bodyOf "1"), ([], bodyOf "2"), ([sl "c"], bodyOf "3")]).labelLens =
    [0, 1, 2] := rfl

/-- C40 needs a block: the empty `BlockBody` claims length 0 although it has no block. -/
theorem c40_empty : BlockBody.default.labelLens = [0] ∧ BlockBody.default.flatIter = [] := ⟨rfl, rfl⟩

/-! ## C41 -/

/-- C41, what `label_lens_uniform` computes: it is `None` iff the label path of some block is a proper prefix of the
label path of another, and `Some(0)` otherwise; never any other number. -/
theorem c41_label_lens_uniform {b : BlockBody} {h : List (List BlockLabel × Body)} (hb : Built b h)
    (hc : ConsistentLabels h) :
    (b.labelLensUniform = none ↔ ∃ p ∈ b.flatIter, ∃ q ∈ b.flatIter, p.1 <+: q.1 ∧ p.1 ≠ q.1) ∧
    (b.labelLensUniform = none ∨ b.labelLensUniform = some 0) ∧
    (b.isLabelLensUniform = true ↔ b.labelLensUniform = some 0) := by
  have he := labelLensUniform_eq b
  have hm : Mixed b ↔ ∃ p ∈ b.flatIter, ∃ q ∈ b.flatIter, p.1 <+: q.1 ∧ p.1 ≠ q.1 := by
    rcases built_filled hb with ⟨-, rfl⟩ | ⟨-, hf⟩
    · exact ⟨fun h => absurd h mixed_body, fun ⟨p, hp, _⟩ => by cases hp⟩
    · exact mixed_prefix b hf (built_uniqueTexts hb hc)
  by_cases hx : Mixed b
  · rw [he.1 hx, BlockBody.isLabelLensUniform, he.1 hx]
    exact ⟨⟨fun _ => hm.1 hx, fun _ => rfl⟩, .inl rfl, by simp⟩
  · rw [he.2 hx, BlockBody.isLabelLensUniform, he.2 hx]
    exact ⟨⟨fun h => (by cases h), fun h => absurd (hm.2 h) hx⟩, .inr rfl, by simp⟩

/-- C41, the true half: when all label paths have the same length, `label_lens_uniform` does report uniformity — but
as `Some(0)`, whatever that length. -/
theorem c41_uniform {b : BlockBody} {h : List (List BlockLabel × Body)} (hb : Built b h) (hc : ConsistentLabels h)
    (n : Nat) (hl : b.labelLens = [n]) : b.labelLensUniform = some 0 := by
  have hc := c41_label_lens_uniform hb hc
  rcases hc.2.1 with hn | h0
  · exfalso
    obtain ⟨p, hp, q, hq, h1, h2⟩ := hc.1.1 hn
    rcases built_filled hb with ⟨-, rfl⟩ | ⟨-, hf⟩
    · cases hp
    · have hp' := (labelLens_mem b hf p.1.length).2 ⟨p, hp, rfl⟩
      have hq' := (labelLens_mem b hf q.1.length).2 ⟨q, hq, rfl⟩
      rw [hl, List.mem_singleton] at hp' hq'
      exact h2 (h1.eq_of_length (by omega))
  · exact h0

/-- C41: it agrees with `label_lens` exactly when that is `{0}` or some path is a proper prefix of another. -/
theorem c41_agrees {b : BlockBody} {h : List (List BlockLabel × Body)} (hb : Built b h) (hc : ConsistentLabels h) :
    (∀ n, b.labelLensUniform = some n ↔ b.labelLens = [n]) ↔
      (b.labelLens = [0] ∨ ∃ p ∈ b.flatIter, ∃ q ∈ b.flatIter, p.1 <+: q.1 ∧ p.1 ≠ q.1) := by
  have h1 := c41_label_lens_uniform hb hc
  constructor
  · intro hall
    rcases h1.2.1 with hn | h0
    · exact .inr (h1.1.1 hn)
    · exact .inl ((hall 0).1 h0)
  · rintro (hl | hp) n
    · rw [c41_uniform hb hc 0 hl, hl]; simp
    · rw [h1.1.2 hp]
      refine ⟨fun h => (by cases h), fun hl => ?_⟩
      have := c41_uniform hb hc n hl
      rw [h1.1.2 hp] at this; cases this

/-- C41 does not hold in general: one label each gives `Some(0)`, not `Some(1)`. -/
theorem c41_counterexample_length :
    let b := BlockBody.fromIter [([sl "a"], bodyOf "1"), ([sl "b"], bodyOf "2")]
    b.labelLens = [1] ∧ b.labelLensUniform = some 0 := ⟨rfl, rfl⟩

/-- C41: and blocks with one and with two labels are called uniform. -/
theorem c41_counterexample_uniform :
    let b := BlockBody.fromIter [([sl "a", sl "x"], bodyOf "1"), ([sl "b"], bodyOf "2")]
    b.labelLens = [1, 2] ∧ b.labelLensUniform = some 0 := ⟨rfl, rfl⟩

/-- paths `a` and `a x`: not uniform -/
example : (BlockBody.fromIter [([sl "a", sl "x"], bodyOf "1"), ([sl "a"], bodyOf "2")]).labelLensUniform = none := rfl

/-! ## C42 -/

/-- C42: `flat_iter` yields `len_blocks` items; the multiset of items does not depend on the hash order, nor do the
counts and label lengths. -/
theorem c42_block_body (b : BlockBody) :
    b.flatIter.length = b.lenBlocks ∧
    ∀ b', SameBlocks b b' → b.flatIter.Perm b'.flatIter ∧ b.lenBlocks = b'.lenBlocks ∧ b.labelLens = b'.labelLens ∧
      b.labelLensUniform = b'.labelLensUniform := by
  refine ⟨(lenBlocks_eq b).symm, fun b' h => ⟨same_flatIter h, ?_, same_labelLens h, ?_⟩⟩
  · rw [lenBlocks_eq, lenBlocks_eq, (same_flatIter h).length_eq]
  · by_cases hm : Mixed b
    · rw [(labelLensUniform_eq b).1 hm, (labelLensUniform_eq b').1 ((same_mixed h).1 hm)]
    · rw [(labelLensUniform_eq b).2 hm, (labelLensUniform_eq b').2 fun h' => hm ((same_mixed h).2 h')]

/-- C42: looking up a label path gives the bodies of the items of `flat_iter` with that path, in order; it does not
depend on the hash order. -/
theorem c42_get {b : BlockBody} {h : List (List BlockLabel × Body)} (hb : Built b h) (hc : ConsistentLabels h)
    (ts : List Str) :
    bodiesAt b ts = (b.flatIter.filter fun q => decide (q.1 = ts)).map Prod.snd ∧
    ∀ b', SameBlocks b b' → bodiesAt b' ts = bodiesAt b ts := by
  have hu := built_uniqueTexts hb hc
  exact ⟨(flatIter_filter b hu ts).symm, fun b' hs => (same_bodiesAt hs hu).symm⟩

/-- C42: an append to the same blocks in another hash order has the same effect up to hash order. -/
theorem c42_append {b b' : BlockBody} {h : List (List BlockLabel × Body)} (hb : Built b h) (hs : SameBlocks b b')
    (ls : List BlockLabel) (x : Body) : SameBlocks (b.append ls x) (b'.append ls x) :=
  same_append hs (built_uniqueLabels hb)

/-- C42: `Blocks`: `len_blocks` counts the items of `flat_iter`, and hash order does not matter to the multiset of
items. -/
theorem c42_blocks (m : Blocks) :
    (Blocks.flatIter m).length = Blocks.lenBlocks m ∧
    ∀ m', SameTypes m m' → (Blocks.flatIter m).Perm (Blocks.flatIter m') ∧ Blocks.lenBlocks m = Blocks.lenBlocks m' := by
  refine ⟨(blocks_lenBlocks m).symm, fun m' h => ⟨sameTypes_flatIter h, ?_⟩⟩
  rw [blocks_lenBlocks, blocks_lenBlocks, (sameTypes_flatIter h).length_eq]

/-- C42: `Blocks`: `get(type, labels)` gives the bodies of the items of `flat_iter` with that type and label path. -/
theorem c42_blocks_get {m : Blocks} {h : List Block} (hm : BuiltBlocks m h) (t : Str)
    (hc : ConsistentLabels (ofType t h)) (ts : List Str) :
    ((m.get t ts).map BlockBody.getEmpty).getD [] =
      ((Blocks.flatIter m).filter fun q => decide (q.1 = t ∧ q.2.1 = ts)).map fun q => q.2.2 := by
  obtain ⟨hn, hg⟩ := builtBlocks_get hm
  have hother : ∀ m' : Blocks, (∀ p ∈ m', p.1.str ≠ t) →
      ((Blocks.flatIter m').filter fun q => decide (q.1 = t ∧ q.2.1 = ts)) = [] := by
    intro m' hm'
    rw [List.filter_eq_nil_iff]
    intro q hq
    rw [blocks_flatIter_eq] at hq
    simp only [List.mem_flatMap, List.mem_map] at hq
    obtain ⟨p, hp, q', -, rfl⟩ := hq
    simp [hm' p hp]
  rcases hg t with ⟨h1, -⟩ | ⟨c, h1, h2, -⟩
  · rw [hother m (get_none.1 h1)]
    simp [Blocks.get, h1]
  · obtain ⟨k, hk, rfl⟩ := get_some h1
    obtain ⟨pre, post, rfl⟩ := List.append_of_mem hk
    have hpre : ∀ p ∈ pre, p.1.str ≠ k.str := nodup_pre (x := (k, c)) hn
    have hpost : ∀ p ∈ post, p.1.str ≠ k.str := by
      intro p hp he
      rw [List.map_append, List.map_cons] at hn
      have := (List.nodup_append.1 hn).2.1
      exact (List.nodup_cons.1 this).1 (by rw [← he]; exact List.mem_map.2 ⟨p, hp, rfl⟩)
    have happ : ∀ a b : Blocks, Blocks.flatIter (a ++ b) = Blocks.flatIter a ++ Blocks.flatIter b := by
      intro a b; simp [blocks_flatIter_eq]
    rw [happ, Blocks.flatIter, List.filter_append, List.filter_append, hother pre hpre, hother post hpost]
    simp only [List.nil_append, List.append_nil, List.filter_map, Function.comp_def, true_and, List.map_map]
    have := (c42_get h2 hc ts).1
    simp only [Blocks.get, h1]
    rw [show (c.flatIter.filter fun q => decide (q.1 = ts)).map (fun q => q.2) = _ from this.symm]
    rw [bodiesAt]
    cases c.get ts <;> rfl

example : SameBlocks (BlockBody.fromIter [([sl "a"], bodyOf "1"), ([il "b"], bodyOf "2")])
    (BlockBody.fromIter [([il "b"], bodyOf "2"), ([sl "a"], bodyOf "1")]) :=
  .labels _ _ _ (.swap _ _ _ _ .nil)

/-- Labels that are a string literal and an identifier with the same text are two labels, and which one a lookup finds
depends on the hash order: the hypothesis on labels is needed. -/
theorem c42_mixed_labels :
    let b := BlockBody.fromIter [([sl "a"], bodyOf "1"), ([il "a"], bodyOf "2")]
    let b' := BlockBody.fromIter [([il "a"], bodyOf "2"), ([sl "a"], bodyOf "1")]
    SameBlocks b b' ∧ bodiesAt b ["a".toList] = [bodyOf "1"] ∧ bodiesAt b' ["a".toList] = [bodyOf "2"] :=
  ⟨.labels _ _ _ (.swap _ _ _ _ .nil), rfl, rfl⟩

/-! ## C43 -/

/-- C43: in every `BlockBody` reachable by appends, no map of labels is empty, and (unless nothing was appended) no
list of bodies without further labels. -/
theorem c43_no_empty_labels {b : BlockBody} {h : List (List BlockLabel × Body)} (hb : Built b h) :
    (∀ e m, Sub b (.labels e m) → m ≠ []) ∧ (h ≠ [] → ∀ bs, Sub b (.body bs) → bs ≠ []) := by
  rcases built_filled hb with ⟨h1, rfl⟩ | ⟨-, hf⟩
  · refine ⟨fun e m hs => ?_, fun h => absurd h1 h⟩
    rw [BlockBody.default, sub_body] at hs; cases hs
  · exact ⟨hf.2, fun _ => hf.1⟩

/-- C43: hence `has_further_labels` says exactly whether `get_labels` gives a map, for every part that `get` returns. -/
theorem c43_has_further_labels {b : BlockBody} {h : List (List BlockLabel × Body)} (hb : Built b h) (ts : List Str)
    {c : BlockBody} (hc : b.get ts = some c) : c.hasFurtherLabels = c.getLabels.isSome := by
  have hsub : ∀ (ts : List Str) (b : BlockBody), b.get ts = some c → Sub b c := by
    intro ts
    induction ts with
    | nil => intro b h; simp [BlockBody.get] at h; subst h; exact .refl _
    | cons t ts ih =>
      intro b h
      cases b with
      | body => cases h
      | labels e m =>
        simp only [BlockBody.get] at h
        split at h
        · cases h
        · rename_i d hd
          obtain ⟨k, hk, -⟩ := get_some hd
          exact .step _ _ (k, d) _ hk (ih d h)
  cases c with
  | body => rfl
  | labels e m =>
    have := (c43_no_empty_labels hb).1 e m (hsub ts b hc)
    cases m with
    | nil => exact absurd rfl this
    | cons => rfl

/-- C43: every entry of `Blocks`, made by appends or by `Blocks::new`, is such a `BlockBody`, with a non-empty
history. -/
theorem c43_blocks {m : Blocks} {h : List Block} (hm : BuiltBlocks m h ∨ m = Blocks.new h) (t : Str) {b : BlockBody}
    (hb : m.get t [] = some b) : ∃ hist, hist ≠ [] ∧ Built b hist := by
  rcases hm with hm | rfl
  · rcases (builtBlocks_get hm).2 t with ⟨h1, -⟩ | ⟨c, h1, h2, h3⟩
    · simp [Blocks.get, h1] at hb
    · simp [Blocks.get, h1, BlockBody.get] at hb
      subst hb
      exact ⟨_, h3, h2⟩
  · rcases c39_new h t with ⟨-, h1⟩ | ⟨run, hr, h1⟩
    · rw [h1] at hb; cases hb
    · rw [h1] at hb
      injection hb with hb
      subst hb
      refine ⟨_, ?_, (c37_extend_body .default).2⟩
      obtain ⟨pre, post, -, hne, -⟩ := hr
      intro h0
      exact hne (List.map_eq_nil_iff.1 h0)

example : ∃ b, Built b [([sl "a"], bodyOf "1"), ([], bodyOf "2")] ∧ ∃ e m, Sub b (.labels e m) :=
  ⟨_, (c37_extend_body (l := [([sl "a"], bodyOf "1"), ([], bodyOf "2")]) .default).2, _, _, .refl _⟩

end Verif.Props
