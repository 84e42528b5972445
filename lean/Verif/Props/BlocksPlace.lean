import Verif.Props.Blocks
/-! # C38 for `Blocks`: exactly what every lookup finds after an append -/
set_option autoImplicit false

namespace Verif.Props
open Verif Spec

/-- The bodies stored directly under a type and a label path. -/
def typeBodies (m : Blocks) (t : Str) (ts : List Str) : List Body := ((m.get t ts).map BlockBody.getEmpty).getD []

theorem typeBodies_get (m : Blocks) (t : Str) (ts : List Str) :
    typeBodies m t ts = bodiesAt ((HashMap.get CowStr.str t m).getD .default) ts := by
  unfold typeBodies Blocks.get bodiesAt
  cases h : HashMap.get CowStr.str t m with
  | some b =>
    simp only [Option.getD_some]
    cases b.get ts <;> rfl
  | none =>
    simp only [Option.getD_none]
    cases ts <;> rfl

theorem typeBodies_append (m : Blocks) (b : Block) (t : Str) (ts : List Str) :
    typeBodies (m.append b) t ts = if b.type.str = t then
      bodiesAt (((HashMap.get CowStr.str t m).getD .default).append b.labels b.body) ts else typeBodies m t ts := by
  rw [typeBodies_get, blocks_append_get]
  split
  · rfl
  · rw [typeBodies_get]

theorem blocks_get_nil (m : Blocks) (t : Str) : m.get t [] = HashMap.get CowStr.str t m := by
  unfold Blocks.get
  cases HashMap.get CowStr.str t m <;> rfl

/-- C38: for `Blocks`: every lookup after `append(block)`, if no labels get lost: under the type and labels of the block the
bodies that were there before and then the new one; everywhere else, for this type or any other, what was there before. -/
theorem c38_blocks_exact {m : Blocks} {h : List Block} (hm : BuiltBlocks m h) (b : Block)
    (hc : ConsistentLabels (ofType b.type.str (h ++ [b]))) (hl : ∀ c, m.get b.type.str [] = some c → ¬ Lost c b.labels)
    (t : Str) (ts : List Str) :
    typeBodies (m.append b) t ts =
      typeBodies m t ts ++ if t = b.type.str ∧ ts = b.labels.map BlockLabel.text then [b.body] else [] := by
  rw [typeBodies_append]
  by_cases ht : b.type.str = t
  · subst ht
    rw [if_pos rfl, typeBodies_get]
    have hof : ofType b.type.str (h ++ [b]) = ofType b.type.str h ++ [(b.labels, b.body)] := by simp [ofType]
    rw [hof] at hc
    have key : ∀ c, Built c (ofType b.type.str h) → ¬ Lost c b.labels →
        bodiesAt (c.append b.labels b.body) ts = bodiesAt c ts ++
          if b.type.str = b.type.str ∧ ts = b.labels.map BlockLabel.text then [b.body] else [] := by
      intro c hb hn
      obtain ⟨⟨n, hn1, hn2⟩, h2⟩ := (c38_block_body hb b.labels b.body hc).1 hn
      by_cases hts : ts = b.labels.map BlockLabel.text
      · subst hts
        rw [if_pos ⟨rfl, rfl⟩, ← hn2]
        unfold bodiesAt; rw [hn1]
      · rw [if_neg (fun h => hts h.2), List.append_nil]; exact h2 ts hts
    rcases (builtBlocks_get hm).2 b.type.str with ⟨h1, h2⟩ | ⟨c, h1, h2, -⟩
    · rw [h1, Option.getD_none]
      exact key _ (by rw [h2]; exact .default) (c38_not_lost .default _ (.inr (by simp)))
    · rw [h1, Option.getD_some]
      exact key c h2 (hl c (by rw [blocks_get_nil, h1]))
  · rw [if_neg ht, if_neg (fun h => ht h.1.symm), List.append_nil]

/-- C38: and if labels get lost: the block is found under its type and the labels up to the first that is new there; everywhere
else is what was there before. -/
theorem c38_blocks_lost_place {m : Blocks} {h : List Block} (hm : BuiltBlocks m h) (b : Block)
    (hc : ConsistentLabels (ofType b.type.str (h ++ [b]))) (c : BlockBody) (hg : m.get b.type.str [] = some c)
    (q r : List BlockLabel) (l : BlockLabel) (e : List Body) (n : List (BlockLabel × BlockBody)) (hls : b.labels = q ++ l :: r)
    (ha : At c q (.labels e n)) (hn : ∀ p ∈ n, p.1.norm ≠ l.norm) (t : Str) (ts : List Str) :
    typeBodies (m.append b) t ts =
      typeBodies m t ts ++ if t = b.type.str ∧ ts = (q ++ [l]).map BlockLabel.text then [b.body] else [] := by
  rw [typeBodies_append]
  by_cases ht : b.type.str = t
  · subst ht
    rw [if_pos rfl, typeBodies_get]
    have hof : ofType b.type.str (h ++ [b]) = ofType b.type.str h ++ [(b.labels, b.body)] := by simp [ofType]
    rw [hof, hls] at hc
    rw [blocks_get_nil] at hg
    rcases (builtBlocks_get hm).2 b.type.str with ⟨h1, h2⟩ | ⟨c', h1, h2, -⟩
    · rw [h1] at hg; cases hg
    · rw [hg] at h1; injection h1 with h1; subst h1
      rw [hg, Option.getD_some, hls, c38_lost_place h2 q r l e n b.body hc ha hn ts]
      by_cases hts : ts = (q ++ [l]).map BlockLabel.text
      · rw [if_pos hts, if_pos ⟨rfl, hts⟩]
      · rw [if_neg hts, if_neg (fun h => hts h.2)]
  · rw [if_neg ht, if_neg (fun h => ht h.1.symm), List.append_nil]

end Verif.Props
