import Verif.Spec.CutConfig
import Verif.Props.Reads
import Verif.Proofs.Alike
import Verif.Proofs.AnyValue
/-! # Reading the first blocks and reading all blocks -/
set_option autoImplicit false

namespace Verif
open PRes Spec Props

variable {P : F64Parse} {I : F64OfInt}

theorem reads_same {t : Ty} (ht : ProperTy t) {n : Node} {v v' : DVal} (h : Reads P I t n v) (h' : Reads P I t n v') : SameVal v v' := by
  obtain ⟨w, -, h1, h2⟩ := c68_read_unique P I ordinary t ht n v v' h h'
  exact sameVal_trans h1 (sameVal_symm h2)

theorem all_same {t : Ty} (ht : ProperTy t) : ∀ {ns rest : List Node} {vs' vs : List DVal}, ReadsAll P I t ns vs' →
    ReadsAll P I t (ns ++ rest) vs → ∃ us ws, vs = us ++ ws ∧ AllRel SameVal vs' us
  | [], _, _, vs, h', _ => by cases h'; exact ⟨[], vs, rfl, .nil⟩
  | n :: ns, rest, _, _, h', h => by
    cases h' with
    | cons _ _ v' _ vs' h1' h2' =>
      cases h with
      | cons _ _ v _ vs h1 h2 =>
        obtain ⟨us, ws, rfl, hr⟩ := all_same ht h2' h2
        exact ⟨v :: us, ws, rfl, .cons _ _ _ _ (reads_same ht h1' h1) hr⟩

theorem proper_seq {t : Ty} (h : ProperTy (.seq t)) : ProperTy t := by cases h; assumption
theorem proper_option {t : Ty} (h : ProperTy (.option t)) : ProperTy t := by cases h; assumption

/-- more elements can be there for all these -/
theorem seq_more {t : Ty} (h1 : ∀ t', t ≠ .seq t') (h2 : t ≠ .ignored) (h3 : t ≠ .any) (h4 : ∀ u, t ≠ .bytes u) {ns more : List Node} {v : DVal}
    (h : ReadsSeq P I t ns v) : ReadsSeq P I t (ns ++ more) v := by
  cases h with
  | seq _ _ _ _ => exact absurd rfl (h1 _)
  | tuple ts ns rest vs h => rw [List.append_assoc]; exact .tuple _ _ _ _ h
  | tupleStruct ts ns rest vs h => rw [List.append_assoc]; exact .tupleStruct _ _ _ _ h
  | struct fs ns rest vs h => rw [List.append_assoc]; exact .struct _ _ _ _ h
  | newtype t n rest v h => exact .newtype _ _ _ _ h
  | ignored _ _ _ => exact absurd rfl h2
  | any _ _ _ => exact absurd rfl h3
  | bytes u _ _ _ => exact absurd rfl (h4 u)

theorem int_noBody {T : IntTy} {b : Body} {v : DVal} (h : Reads P I (.int T) (.body b) v) : False :=
  leaf_noBody P I (t := .int T) trivial h

theorem body_map {t : Ty} {b : Body} {v : DVal} (h : Reads P I t (.body b) v) : ∃ ns, ReadsMap P I t ns v := by
  cases h with
  | body _ _ ns _ _ hm => exact ⟨ns, hm⟩

/-- what the value of a group of blocks is read from -/
theorem block_cases {t : Ty} (ho : ∀ t', t ≠ .option t') {bs : List Body} {v : DVal} (h : Reads P I t (.block (.body bs)) v) :
    (∃ b, bs = [b] ∧ (∀ t', t ≠ .seq t') ∧ Reads P I t (.body b) v) ∨
    ((bs.length ≠ 1 ∨ ∃ t', t = .seq t') ∧ ReadsSeq P I t (bs.map .body) v) := by
  cases h with
  | block _ _ b _ hu h1 hb => cases hu; exact .inl ⟨b, rfl, h1, hb⟩
  | blocks _ _ bs1 _ hu h1 _ hs => cases hu; exact .inr ⟨h1, hs⟩
  | someBlock t' _ w _ hw => exact absurd rfl (ho t')
  | noBlock t' _ _ => exact absurd rfl (ho t')

theorem fewer_block_list {t : Ty} (ht : ProperTy (.seq t)) {bs more : List Body} {v' v : DVal}
    (h' : Reads P I (.seq t) (.block (.body bs)) v') (h : Reads P I (.seq t) (.block (.body (bs ++ more))) v) : Fewer v' v := by
  rcases block_cases (by simp) h' with ⟨_, -, h0, -⟩ | ⟨-, hs'⟩
  · exact absurd rfl (h0 t)
  rcases block_cases (by simp) h with ⟨_, -, h0, -⟩ | ⟨-, hs⟩
  · exact absurd rfl (h0 t)
  cases hs' with
  | seq _ _ vs' ha' =>
    cases hs with
    | seq _ _ vs ha =>
      rw [List.map_append] at ha
      obtain ⟨us, ws, rfl, hr⟩ := all_same (proper_seq ht) ha' ha
      exact .list _ _ _ hr

theorem ignored_block {bs : List Body} {v : DVal} (h : Reads P I .ignored (.block (.body bs)) v) : v = .ignored := by
  rcases block_cases (by simp) h with ⟨_, -, -, hb⟩ | ⟨-, hs⟩
  · obtain ⟨ns, hm⟩ := body_map hb
    cases hm; rfl
  · cases hs; rfl

theorem bytes_block {u : U8} {bs : List Body} (hne : bs ≠ []) {v : DVal} (h : Reads P I (.bytes u) (.block (.body bs)) v) : False := by
  rcases block_cases (by simp) h with ⟨_, -, -, hb⟩ | ⟨-, hs⟩
  · obtain ⟨ns, hm⟩ := body_map hb
    cases hm
  · cases hs with
    | bytes _ _ vs ha =>
      cases bs with
      | nil => exact hne rfl
      | cons b bs => cases ha with
        | cons _ _ _ _ _ h1 _ => exact int_noBody h1

theorem fewer_block_plain {t : Ty} (ht : ProperTy t) (ho : ∀ t', t ≠ .option t') (h1 : ∀ t', t ≠ .seq t') (h2 : t ≠ .ignored)
    (h3 : t ≠ .any) (h4 : ∀ u, t ≠ .bytes u) (h5 : ∀ fs, t ≠ .struct fs) {bs more : List Body} (hne : bs ≠ []) {v' v : DVal}
    (h' : Reads P I t (.block (.body bs)) v') (h : Reads P I t (.block (.body (bs ++ more))) v) : Fewer v' v := by
  rcases block_cases ho h' with ⟨b, rfl, -, hb'⟩ | ⟨hl, hs'⟩
  · rcases block_cases ho h with ⟨b2, e, -, hb⟩ | ⟨-, hs⟩
    · simp only [List.cons_append, List.nil_append, List.cons.injEq] at e
      obtain ⟨rfl, -⟩ := e
      exact .same _ _ (reads_same ht hb' hb)
    · obtain ⟨ns, hm⟩ := body_map hb'
      cases hm with
      | map => cases hs
      | struct fs _ _ _ _ => exact absurd rfl (h5 fs)
      | ignored => exact absurd rfl h2
      | any => exact absurd rfl h3
  · have hl : bs.length ≠ 1 := hl.resolve_right fun ⟨t', e⟩ => h1 t' e
    have hlen : 2 ≤ bs.length := by
      cases bs with
      | nil => exact absurd rfl hne
      | cons b bs => cases bs with
        | nil => exact absurd rfl hl
        | cons c bs => simp
    rcases block_cases ho h with ⟨b2, e, -, hb⟩ | ⟨-, hs⟩
    · have := congrArg List.length e
      simp at this; omega
    · have hs2 := seq_more h1 h2 h3 h4 (more := more.map .body) hs'
      rw [← List.map_append] at hs2
      refine .same _ _ (reads_same ht (.blocks t _ _ _ (.body _) (.inl ?_) ?_ hs2) h)
      · simp; omega
      · rintro ⟨⟨t', e⟩, -⟩; exact h1 t' e

theorem fewer_block (bs more : List Body) (hne : bs ≠ []) : ∀ (N : Nat) (t : Ty), sizeOf t < N → ProperTy t → CountFree t → ∀ (v' v : DVal),
    Reads P I t (.block (.body bs)) v' → Reads P I t (.block (.body (bs ++ more))) v → Fewer v' v
  | 0, _, h, _, _, _, _, _, _ => absurd h (by omega)
  | N + 1, t, hN, ht, hc, v', v, h', h => by
    cases t with
    | option t =>
      have some : ∀ {bs : List Body} {v : DVal}, bs ≠ [] → Reads P I (.option t) (.block (.body bs)) v →
          ∃ w, v = .some w ∧ Reads P I t (.block (.body bs)) w := by
        intro bs v hne h
        cases h with
        | someBlock _ _ w _ h1 => exact ⟨w, rfl, h1⟩
        | noBlock _ _ h0 => simp [BlockBody.lenBlocks] at h0; exact absurd h0 hne
        | block _ _ b _ hu _ hb =>
          obtain ⟨_, hm⟩ := body_map hb
          cases hm
        | blocks _ _ _ _ _ _ _ hs => cases hs
      obtain ⟨w', rfl, h1'⟩ := some hne h'
      obtain ⟨w, rfl, h1⟩ := some (by simp [hne]) h
      refine .some _ _ (fewer_block bs more hne N t ?_ (proper_option ht) hc w' w h1' h1)
      simp only [Ty.option.sizeOf_spec] at hN; omega
    | seq t => exact fewer_block_list ht h' h
    | ignored => rw [ignored_block h', ignored_block h]; exact .same _ _ (.refl _)
    | any => exact hc.elim
    | struct fs => exact hc.elim
    | bytes u => exact (bytes_block hne h').elim
    | _ => exact fewer_block_plain ht (by simp) (by simp) (by simp) (by simp) (by simp) (by simp) hne h' h

theorem unlabelled_of_read : ∀ (N : Nat) (t : Ty), sizeOf t < N → ∀ (r : List (List BlockLabel × Body)) (v : DVal), r ≠ [] →
    Reads P I t (.block (BlockBody.fromIter r)) v → ∃ bs : List Body, r = bs.map fun b => ([], b)
  | 0, _, h, _, _, _, _ => absurd h (by omega)
  | N + 1, t, hN, r, v, hr, h => by
    generalize hc : BlockBody.fromIter r = c at h
    cases h with
    | block _ _ b _ hu _ _ => subst hc; exact ⟨_, unlabelled_fromIter hu⟩
    | blocks _ _ bs _ hu _ _ _ => subst hc; exact ⟨_, unlabelled_fromIter hu⟩
    | someBlock t _ w _ h1 =>
      subst hc
      exact unlabelled_of_read N t (by simp only [Ty.option.sizeOf_spec] at hN; omega) r w hr h1
    | noBlock t _ h0 =>
      exfalso
      subst hc
      rw [lenBlocks_fromIter] at h0
      exact hr (List.eq_nil_of_length_eq_zero h0)

/-- The node of the blocks of one type. -/
def runNode (run : List Block) : Node := .block (BlockBody.fromIter (run.map fun q => (q.labels, q.body)))

theorem runNode_read {run : List Block} (hne : run ≠ []) {t : Ty} {v : DVal} (h : Reads P I t (runNode run) v) :
    runNode run = .block (.body (run.map Block.body)) := by
  obtain ⟨bs, e⟩ := unlabelled_of_read _ t (Nat.lt_succ_self _) _ v (by simpa using hne) h
  have hl : ∀ q ∈ run, q.labels = [] := fun q hq => by
    have : (q.labels, q.body) ∈ run.map fun q => (q.labels, q.body) := List.mem_map_of_mem hq
    rw [e] at this
    obtain ⟨x, -, hx⟩ := List.mem_map.1 this
    exact (congrArg Prod.fst hx).symm
  rw [runNode, fromIter_unlabelled hl]

theorem fewer_run {run' run : List Block} (hne : run' ≠ []) (hpre : run' <+: run) {t : Ty} (ht : ProperTy t)
    (hc : CountFree t ∨ run.length ≤ 1) {v' v : DVal} (h' : Reads P I t (runNode run') v') (h : Reads P I t (runNode run) v) :
    Fewer v' v := by
  obtain ⟨more, rfl⟩ := hpre
  rcases hc with hc | hc
  · rw [runNode_read hne h'] at h'
    rw [runNode_read (by simp [hne]) h, List.map_append] at h
    exact fewer_block _ _ (by simpa using hne) _ t (Nat.lt_succ_self _) ht hc v' v h' h
  · have hm : more = [] := by
      cases run' with
      | nil => exact absurd rfl hne
      | cons q run' => cases more with
        | nil => rfl
        | cons m more => simp at hc
    subst hm
    rw [List.append_nil] at h
    exact .same _ _ (reads_same ht h' h)

theorem attrs_prefix {b' b : Body} (h : b' <+: b) : attrs b' <+: attrs b := h.filterMap _
theorem blocks_prefix {b' b : Body} (h : b' <+: b) : blocks b' <+: blocks b := h.filterMap _

theorem adjacent_prefix {bs' bs : List Block} (h : bs' <+: bs) (ha : TypesAdjacent bs) : TypesAdjacent bs' := by
  obtain ⟨rest, rfl⟩ := h
  intro pre a mid c post e
  exact ha pre a mid c (post ++ rest) (by rw [e]; simp)

/-- What the first elements have under a name, the whole document has, too; for blocks it may have more of them. -/
theorem entry_left {b' b : Body} (h : b' <+: b) {k : Str} {n' : Node} (he : EntryOf b' k n') :
    ∃ n, EntryOf b k n := by
  rcases he with ⟨c, e, hm, hk, rfl⟩ | ⟨run, hl, rfl⟩
  · exact ⟨_, .inl ⟨c, e, (attrs_prefix h).subset hm, hk, rfl⟩⟩
  · obtain ⟨q, hq, hqt⟩ := (lastRun_sub hl).1
    obtain ⟨r, hr⟩ := lastRun_of_mem ⟨q, (blocks_prefix h).subset hq, hqt⟩
    exact ⟨_, .inr ⟨r, hr, rfl⟩⟩

theorem entry_left_attr {b' b : Body} (h : b' <+: b) (hd : Distinct (attrs b)) (hc : ¬ NameClash b) {k : Str} {e : Expr} {n : Node}
    (he' : EntryOf b' k (.expr e)) (he : EntryOf b k n) : n = .expr e := by
  refine entry_unique hd hc he ?_
  rcases he' with ⟨c, e', hm, hk, e1⟩ | ⟨run, hl, e1⟩
  · exact .inl ⟨c, e', (attrs_prefix h).subset hm, hk, e1⟩
  · cases e1

theorem entry_left_blocks {b' b : Body} (h : b' <+: b) (hc : ¬ NameClash b) (ha : TypesAdjacent (blocks b)) {k : Str}
    {run' : List Block} {n : Node} (hl : LastRun k (blocks b') run') (he : EntryOf b k n) :
    run' ≠ [] ∧ run' <+: (blocks b).filter (fun q => decide (q.type.str = k)) ∧
      n = runNode ((blocks b).filter fun q => decide (q.type.str = k)) := by
  obtain ⟨hne, e'⟩ := (lastRun_adjacent (adjacent_prefix (blocks_prefix h) ha) k run').1 hl
  refine ⟨hne, e' ▸ (blocks_prefix h).filter _, ?_⟩
  rcases he with ⟨c, e, hm, hk, rfl⟩ | ⟨run, hr, rfl⟩
  · exfalso
    obtain ⟨q, hq, hqt⟩ := (lastRun_sub hl).1
    exact hc ⟨_, hm, q, (blocks_prefix h).subset hq, hk.trans hqt.symm⟩
  · obtain ⟨-, rfl⟩ := (lastRun_adjacent ha k run).1 hr
    rfl

/-- An attribute with another name at the end makes no difference. -/
theorem entry_snoc {f : Body} {k : CowStr} {e : Expr} {j : Str} (hj : j ≠ k.str) {n : Node} :
    EntryOf (f ++ [.attribute k e]) j n ↔ EntryOf f j n := by
  have h1 : attrs (f ++ [.attribute k e]) = attrs f ++ [(k, e)] := by simp [attrs]
  have h2 : blocks (f ++ [.attribute k e]) = blocks f := by simp [blocks]
  unfold EntryOf
  rw [h1, h2]
  refine or_congr ⟨?_, ?_⟩ Iff.rfl
  · rintro ⟨c, x, hm, hk, rfl⟩
    rcases List.mem_append.1 hm with hm | hm
    · exact ⟨c, x, hm, hk, rfl⟩
    · simp only [List.mem_singleton, Prod.mk.injEq] at hm
      exact absurd (hm.1 ▸ hk) (fun h => hj h.symm)
  · rintro ⟨c, x, hm, hk, rfl⟩
    exact ⟨c, x, List.mem_append_left _ hm, hk, rfl⟩

theorem fields_left {α β : Type} {R' R : α → β → Prop} {S : β → β → Prop} : ∀ {fs : List α} {vs' vs : List β}, AllRel R' fs vs' →
    AllRel R fs vs → (∀ f ∈ fs, ∀ w' w, R' f w' → R f w → S w' w) → AllRel S vs' vs
  | [], _, _, h', h, _ => by cases h'; cases h; exact .nil
  | f :: fs, _, _, h', h, hS => by
    cases h' with
    | cons _ _ _ _ h1' h2' => cases h with
      | cons _ _ _ _ h1 h2 =>
        exact .cons _ _ _ _ (hS f (by simp) _ _ h1' h1) (fields_left h2' h2 fun g hg => hS g (by simp [hg]))

end Verif
