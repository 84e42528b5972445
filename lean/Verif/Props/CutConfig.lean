import Verif.Proofs.CutConfig
import Verif.Props.Truncate
import Verif.Props.Schema
/-! # C105: configurations that were cut off -/
set_option autoImplicit false

namespace Verif.Props
open Verif Spec

variable (U : CharClass) (P : F64Parse) (I : F64OfInt) (ord ord' : HashOrder)

theorem deFromStr_ok {t : Ty} {s : Str} {v : DVal} (h : deFromStr U P I ord t s = .ok v) :
    ∃ b, parseStr U s = .ok b ∧ deserialize P I ord t (.body b) = .ok v := by
  unfold deFromStr at h
  cases hb : parseStr U s with
  | ok b => rw [hb] at h; exact ⟨b, rfl, h⟩
  | error e => rw [hb] at h; cases h
  | panic => rw [hb] at h; cases h
  | diverge => rw [hb] at h; cases h

/-- the entries of what is left, apart from an attribute with this name -/
theorem left_of {p r : Str} {b' b : Body} (h : CutOff p r b' b) : ∃ (b0 : Body) (ex : Option Str), b0 <+: b ∧
    (∀ j, some j ≠ ex → ∀ n, EntryOf b' j n ↔ EntryOf b0 j n) ∧ (b0 = b' ∨ ex ≠ none) ∧
    ∀ k ∈ ex, ∃ c n' n, CutNumber p r n' n ∧ c.str = k ∧ (c, .number n) ∈ attrs b := by
  cases h with
  | between _ rest => exact ⟨b', none, List.prefix_append _ _, fun _ _ _ => Iff.rfl, .inl rfl, by simp⟩
  | number f rest k n' n hn =>
    refine ⟨f, some k.str, List.prefix_append _ _, fun j hj n => entry_snoc fun e => hj (by rw [e]), .inr (by simp), ?_⟩
    intro j hj
    simp only [Option.mem_def, Option.some.injEq] at hj
    subst hj
    exact ⟨k, n', n, hn, rfl, by simp [attrs]⟩

/-- fields of both readings, where the entries are those of a first part of the document -/
theorem struct_left (S : Str × DVal → Str × DVal → Prop) (fs : List (Str × Ty)) (hfs : (fs.map Prod.fst).Nodup)
    (hp : ∀ f ∈ fs, ProperTy f.2) {b' b b0 : Body} (hb0 : b0 <+: b) (ex : Option Str)
    (hE : ∀ j, some j ≠ ex → ∀ n, EntryOf b' j n ↔ EntryOf b0 j n) {v' v : DVal}
    (h' : deserialize P I ord' (.struct fs) (.body b') = .ok v') (h : deserialize P I ord (.struct fs) (.body b) = .ok v)
    (hsame : ∀ f ∈ fs, ∀ w' w, SameVal w' w → S (f.1, w') (f.1, w))
    (hnone : ∀ f ∈ fs, (∃ t, f.2 = .option t) → ∀ w, S (f.1, .none) (f.1, w))
    (hex : ∀ f ∈ fs, some f.1 = ex → ∀ w' w, S (f.1, w') (f.1, w))
    (hblocks : ∀ f ∈ fs, ∀ run' n w' w, LastRun f.1 (blocks b0) run' → EntryOf b f.1 n → Reads P I f.2 (runNode run') w' →
      Reads P I f.2 n w → S (f.1, w') (f.1, w)) :
    ∃ vs' vs, v' = .entries vs' ∧ v = .entries vs ∧ AllRel S vs' vs := by
  obtain ⟨-, -, ⟨vs', rfl, h1'⟩, -⟩ := (c58_struct P I ord' fs hfs b' v').1 h'
  obtain ⟨hd, hc, ⟨vs, rfl, h1⟩, -⟩ := (c58_struct P I ord fs hfs b v).1 h
  refine ⟨vs', vs, rfl, rfl, fields_left h1' h1 ?_⟩
  rintro f hf ⟨k', w'⟩ ⟨k, w⟩ ⟨rfl, hv'⟩ ⟨rfl, hv⟩
  by_cases hj : some f.1 = ex
  · exact hex f hf hj _ _
  rcases hv' with ⟨n', hn', hw'⟩ | ⟨-, ht, rfl⟩
  · rw [hE _ hj] at hn'
    rcases hv with ⟨n, hn, hw⟩ | ⟨hno, -, -⟩
    · have hr' := c68_deserialized_is_read P I ord' f.2 (hp f hf) n' w' hw'
      have hr := c68_deserialized_is_read P I ord f.2 (hp f hf) n w hw
      rcases hn' with ⟨c, e, hm, hk, rfl⟩ | ⟨run', hl, rfl⟩
      · have := entry_left_attr hb0 hd hc (.inl ⟨c, e, hm, hk, rfl⟩) hn
        subst this
        exact hsame f hf _ _ (reads_same (hp f hf) hr' hr)
      · exact hblocks f hf run' n w' w hl hn hr' hr
    · obtain ⟨n, hn⟩ := entry_left hb0 hn'
      exact absurd hn (hno n)
  · exact hnone f hf ht w

/-- C105: if a configuration file was cut off, and it is still read as the struct (and so was the whole file), then each field
of the struct has the value it has in the whole file; or it is an `Option` that is now `None`; or it is the list of the first
ones of the blocks. The only exception is one field whose number was cut within its literal. (This is for files with blocks of
the same type next to each other, and field types that do not change their meaning with the number of blocks.) -/
theorem c105_cut_config (fs : List (Str × Ty)) (ht : ProperTy (.struct fs)) (p r : Str) (v' v : DVal) (b : Body)
    (h' : deFromStr U P I ord' (.struct fs) p = .ok v') (h : deFromStr U P I ord (.struct fs) (p ++ r) = .ok v)
    (hb : parseStr U (p ++ r) = .ok b) (ha : TypesAdjacent (blocks b)) (hs : ∀ f ∈ fs, SafeField b f) :
    ∃ vs' vs, v' = .entries vs' ∧ v = .entries vs ∧
      (AllRel FieldLeft vs' vs ∨ ∃ k n' n, CutNumber p r n' n ∧ (k, .number n) ∈ attrs b ∧
        AllRel (fun x' x => x'.1 = x.1 ∧ (x.1 ≠ k.str → FieldLeft x' x)) vs' vs) := by
  obtain ⟨b', hb', hv'⟩ := deFromStr_ok U P I ord' h'
  obtain ⟨b2, hb2, hv⟩ := deFromStr_ok U P I ord h
  rw [hb] at hb2; cases hb2
  obtain ⟨hp, hfs⟩ : (∀ f ∈ fs, ProperTy f.2) ∧ (fs.map Prod.fst).Nodup := by cases ht; exact ⟨‹_›, ‹_›⟩
  obtain ⟨b0, ex, hb0, hE, -, hx⟩ := left_of (c92_cut_off U p r b' b hb' hb)
  have hblock : ∀ f ∈ fs, ∀ run' n w' w, LastRun f.1 (blocks b0) run' → EntryOf b f.1 n → Reads P I f.2 (runNode run') w' →
      Reads P I f.2 n w → FieldLeft (f.1, w') (f.1, w) := by
    intro f hf run' n w' w hl hn hr' hr
    have hc := ((c58_struct P I ord fs hfs b v).1 hv).2.1
    obtain ⟨hne, hpre, rfl⟩ := entry_left_blocks hb0 hc ha hl hn
    exact ⟨rfl, .inr (fewer_run hne hpre (hp f hf) (hs f hf) hr' hr)⟩
  cases ex with
  | none =>
    obtain ⟨vs', vs, e1, e2, hR⟩ := struct_left P I ord ord' FieldLeft fs hfs hp hb0 none hE hv' hv
      (fun f _ w' w hw => ⟨rfl, .inr (.same _ _ hw)⟩) (fun f _ _ w => ⟨rfl, .inl rfl⟩) (fun f _ h => by cases h) hblock
    exact ⟨vs', vs, e1, e2, .inl hR⟩
  | some j =>
    obtain ⟨k, n', n, hcut, rfl, hm⟩ := hx j rfl
    obtain ⟨vs', vs, e1, e2, hR⟩ := struct_left P I ord ord' (fun x' x => x'.1 = x.1 ∧ (x.1 ≠ k.str → FieldLeft x' x)) fs hfs hp hb0
      (some k.str) hE hv' hv
      (fun f _ w' w hw => ⟨rfl, fun _ => ⟨rfl, .inr (.same _ _ hw)⟩⟩) (fun f _ _ w => ⟨rfl, fun _ => ⟨rfl, .inl rfl⟩⟩)
      (fun f _ h w' w => ⟨rfl, fun hne => absurd (Option.some.inj h) hne⟩)
      (fun f hf run' n w' w h1 h2 h3 h4 => ⟨rfl, fun _ => hblock f hf run' n w' w h1 h2 h3 h4⟩)
    exact ⟨vs', vs, e1, e2, .inr ⟨k, n', n, hcut, hm, hR⟩⟩

theorem leaf_not_block {t : Ty} (ht : OptLeaf t) {run : List Block} (hne : run ≠ []) {v : DVal} (h : Reads P I t (runNode run) v) :
    False := by
  have leaf : ∀ {t : Ty} {v : DVal}, LeafTy t → Reads P I t (runNode run) v → False := by
    intro t v ht h
    have hp : ProperTy t := by
      cases t <;> first | exact ht.elim | constructor
    obtain ⟨w, hw, -⟩ := c68_read_is_deserialized P I ordinary t hp _ v h
    exact c68_leaf_not_body_or_block P I ordinary t ht _ (.inr ⟨_, rfl⟩) w hw
  rcases ht with ht | ⟨t, rfl, ht⟩
  · exact leaf ht h
  · rw [runNode] at h
    generalize hc : BlockBody.fromIter (run.map fun q => (q.labels, q.body)) = c at h
    cases h with
    | someBlock _ _ w _ h1 => subst hc; exact leaf (t := t) ht h1
    | noBlock _ _ h0 =>
      subst hc
      rw [lenBlocks_fromIter] at h0
      exact hne (by simpa using List.eq_nil_of_length_eq_zero h0)
    | block _ _ b _ hu _ hb =>
      obtain ⟨_, hm⟩ := body_map hb
      cases hm
    | blocks _ _ _ _ _ _ _ hs => cases hs

theorem leaf_flat {t : Ty} (ht : LeafTy t) {n : Node} {v : DVal} (h : Reads P I t n v) :
    (∀ w, v ≠ .some w) ∧ (∀ w, v ≠ .seq w) ∧ ∀ w, v ≠ .entries w := by
  cases h with
  | tuple => exact (leaf_noSeq P I ht ‹_›).elim
  | object => exact (leaf_noMap P I ht ‹_›).elim
  | body => exact (leaf_noMap P I ht ‹_›).elim
  | block => exact (leaf_noBody P I ht ‹_›).elim
  | blocks => exact (leaf_noSeq P I ht ‹_›).elim
  | none => exact ht.elim
  | some => exact ht.elim
  | newtype => exact ht.elim
  | someBlock => exact ht.elim
  | noBlock => exact ht.elim
  | ignoredNull => exact ht.elim
  | anyNull => exact ht.elim
  | anyBool => exact ht.elim
  | anyInt => exact ht.elim
  | anyFloat => exact ht.elim
  | anyString => exact ht.elim
  | anyKey => exact ht.elim
  | bytesString => exact ht.elim
  | bytesKey => exact ht.elim
  | _ => simp

theorem same_optLeaf {t : Ty} (ht : OptLeaf t) {n : Node} {w' w : DVal} (h' : Reads P I t n w') (hs : SameVal w' w) : w' = w := by
  have flat : ∀ {t : Ty} {n : Node} {w' w : DVal}, LeafTy t → Reads P I t n w' → SameVal w' w → w' = w := by
    intro t n w' w ht h' hs
    obtain ⟨h1, h2, h3⟩ := leaf_flat P I ht h'
    exact (same_leaf hs h1 h2 h3).symm
  rcases ht with ht | ⟨t, rfl, ht⟩
  · exact flat ht h' hs
  · have inner : w' = .none ∨ ∃ (u : DVal) (m : Node), w' = .some u ∧ Reads P I t m u := by
      cases h' with
      | none => exact .inl rfl
      | some _ e v _ h => exact .inr ⟨v, _, rfl, h⟩
      | someBlock _ _ v _ h => exact .inr ⟨v, _, rfl, h⟩
      | noBlock => exact .inl rfl
      | tuple _ _ _ _ _ h => cases h
      | object _ _ _ _ _ h => cases h
      | body _ _ _ _ _ h => cases h
      | block _ _ _ _ _ _ h =>
        obtain ⟨_, hm⟩ := body_map h
        cases hm
      | blocks _ _ _ _ _ _ _ h => cases h
    rcases inner with rfl | ⟨u, m, rfl, hu⟩
    · cases hs; rfl
    · cases hs with
      | refl => rfl
      | some _ u' hs => rw [flat ht hu hs]

/-- fields that are read from attributes only -/
theorem leaves_left (S : Str × DVal → Str × DVal → Prop) (fs : List (Str × Ty)) (hfs : (fs.map Prod.fst).Nodup)
    (hl : ∀ f ∈ fs, OptLeaf f.2) (p r : Str) (v' v : DVal)
    (h' : deFromStr U P I ord' (.struct fs) p = .ok v') (h : deFromStr U P I ord (.struct fs) (p ++ r) = .ok v)
    (hcut : ¬ Head NumberGoesOn r ∨ ∃ p0 c, p = p0 ++ [c] ∧ ¬ NumChar c)
    (hsame : ∀ f ∈ fs, ∀ w, S (f.1, w) (f.1, w)) (hnone : ∀ f ∈ fs, (∃ t, f.2 = .option t) → ∀ w, S (f.1, .none) (f.1, w)) :
    ∃ vs' vs, v' = .entries vs' ∧ v = .entries vs ∧ AllRel S vs' vs := by
  obtain ⟨b', hb', hv'⟩ := deFromStr_ok U P I ord' h'
  obtain ⟨b, hb, hv⟩ := deFromStr_ok U P I ord h
  have hpre := c92_between_tokens U p r b' b hb' hb hcut
  have leafProper : ∀ {t : Ty}, LeafTy t → ProperTy t := by
    intro t ht
    cases t <;> first | exact ht.elim | constructor
  have hp : ∀ f ∈ fs, ProperTy f.2 := fun f hf => by
    rcases hl f hf with ht | ⟨t, e, ht⟩
    · exact leafProper ht
    · rw [e]; exact .option _ (leafProper ht)
  obtain ⟨-, -, ⟨vs', rfl, h1'⟩, -⟩ := (c58_struct P I ord' fs hfs b' v').1 hv'
  obtain ⟨hd, hc, ⟨vs, rfl, h1⟩, -⟩ := (c58_struct P I ord fs hfs b v).1 hv
  refine ⟨vs', vs, rfl, rfl, fields_left h1' h1 ?_⟩
  rintro f hf ⟨k', w'⟩ ⟨k, w⟩ ⟨rfl, hw'⟩ ⟨rfl, hw⟩
  rcases hw' with ⟨n', hn', hw'⟩ | ⟨-, ht, rfl⟩
  · have hr' := c68_deserialized_is_read P I ord' f.2 (hp f hf) n' w' hw'
    rcases hn' with ⟨c, e, hm, hk, rfl⟩ | ⟨run', hl', rfl⟩
    · rcases hw with ⟨n, hn, hw⟩ | ⟨hno, -, -⟩
      · have := entry_left_attr hpre hd hc (.inl ⟨c, e, hm, hk, rfl⟩) hn
        subst this
        have hr := c68_deserialized_is_read P I ord f.2 (hp f hf) _ w hw
        have := same_optLeaf P I (hl f hf) hr' (reads_same (hp f hf) hr' hr)
        subst this
        exact hsame f hf _
      · obtain ⟨n, hn⟩ := entry_left hpre (.inl ⟨c, e, hm, hk, rfl⟩)
        exact absurd hn (hno n)
    · obtain ⟨_, _, _, hne, _⟩ := hl'
      exact (leaf_not_block P I (hl f hf) hne hr').elim
  · exact hnone f hf ht w

/-- C105: for a struct of leaves (booleans, numbers, strings, characters, and `Option`s of them) that is read from a file that was
cut off between two tokens (or behind a line end): every field has its value, or is an `Option` and now `None`. -/
theorem c105_leaves (fs : List (Str × Ty)) (hfs : (fs.map Prod.fst).Nodup) (hl : ∀ f ∈ fs, OptLeaf f.2) (p r : Str) (v' v : DVal)
    (h' : deFromStr U P I ord' (.struct fs) p = .ok v') (h : deFromStr U P I ord (.struct fs) (p ++ r) = .ok v)
    (hcut : ¬ Head NumberGoesOn r ∨ ∃ p0 c, p = p0 ++ [c] ∧ ¬ NumChar c) :
    ∃ vs' vs, v' = .entries vs' ∧ v = .entries vs ∧ AllRel (fun x' x => x'.1 = x.1 ∧ (x'.2 = .none ∨ x'.2 = x.2)) vs' vs :=
  leaves_left U P I ord ord' _ fs hfs hl p r v' v h' h hcut (fun _ _ _ => ⟨rfl, .inr rfl⟩) fun _ _ _ _ => ⟨rfl, .inl rfl⟩

/-- C105: if no field of such a struct is an `Option`, then what is read from the rest of a file that was cut off there is the
same struct, or nothing is read. -/
theorem c105_required_leaves (fs : List (Str × Ty)) (hfs : (fs.map Prod.fst).Nodup) (hl : ∀ f ∈ fs, LeafTy f.2) (p r : Str)
    (v' v : DVal) (h' : deFromStr U P I ord' (.struct fs) p = .ok v') (h : deFromStr U P I ord (.struct fs) (p ++ r) = .ok v)
    (hcut : ¬ Head NumberGoesOn r ∨ ∃ p0 c, p = p0 ++ [c] ∧ ¬ NumChar c) : v' = v := by
  obtain ⟨vs', vs, rfl, rfl, hR⟩ := leaves_left U P I ord ord' (fun x' x => x' = x) fs hfs (fun f hf => .inl (hl f hf)) p r v' v h' h hcut
    (fun _ _ _ => rfl) fun f hf ⟨t, e⟩ _ => by
      have := hl f hf
      rw [e] at this
      exact this.elim
  have : vs' = vs := by
    clear h' h
    induction hR with
    | nil => rfl
    | cons a b as bs h _ ih => rw [h, ih]
  rw [this]

theorem entry_key {b : Body} {k : Str} {n : Node} (h : EntryOf b k n) : k ∈ b.map elementKey := by
  rcases h with ⟨c, e, hm, rfl, -⟩ | ⟨run, hl, -⟩
  · rw [attrs, List.mem_filterMap] at hm
    obtain ⟨el, hel, he⟩ := hm
    cases el with
    | «attribute» k' e' => cases he; exact List.mem_map.2 ⟨_, hel, rfl⟩
    | block => cases he
  · obtain ⟨q, hq, rfl⟩ := (lastRun_sub hl).1
    rw [blocks, List.mem_filterMap] at hq
    obtain ⟨el, hel, he⟩ := hq
    cases el with
    | «attribute» => cases he
    | block t ls x => cases he; exact List.mem_map.2 ⟨_, hel, rfl⟩

/-- C105: a last element (not a number) with a name of its own that a field which is not an `Option` asks for is an end marker:
if anything is read from a file that was cut off, then nothing is missing but layout. -/
theorem c105_end_marker (fs : List (Str × Ty)) (hfs : (fs.map Prod.fst).Nodup) (p r : Str) (v' : DVal) (f : Body) (el : BodyElement)
    (t : Ty) (h' : deFromStr U P I ord' (.struct fs) p = .ok v') (hb : parseStr U (p ++ r) = .ok (f ++ [el]))
    (hel : ∀ c n, el ≠ .attribute c (.number n)) (hnew : elementKey el ∉ f.map elementKey) (hf : (elementKey el, t) ∈ fs)
    (ht : ∀ t', t ≠ .option t') : parseStr U p = .ok (f ++ [el]) := by
  obtain ⟨b', hb', hv'⟩ := deFromStr_ok U P I ord' h'
  obtain ⟨n, hn⟩ := c80_required_field P I ord' fs hfs b' v' hv' _ t hf ht
  have hk := entry_key hn
  generalize hz : f ++ [el] = z at hb ⊢
  cases c92_cut_off U p r b' z hb' hb with
  | between _ rest =>
    rcases List.eq_nil_or_concat rest with rfl | ⟨rest', x, rfl⟩
    · rw [List.append_nil]; exact hb'
    · rw [List.concat_eq_append, ← List.append_assoc] at hz
      obtain ⟨rfl, -⟩ := List.append_inj' hz rfl
      rw [List.map_append] at hnew
      exact absurd (List.mem_append_left _ hk) hnew
  | number g rest k n' m hcut =>
    exfalso
    rcases List.eq_nil_or_concat rest with rfl | ⟨rest', x, rfl⟩
    · obtain ⟨-, e⟩ := List.append_inj' hz rfl
      exact hel _ _ (List.cons.inj e).1
    · rw [List.concat_eq_append, show g ++ BodyElement.attribute k (.number m) :: (rest' ++ [x]) = (g ++ BodyElement.attribute k (.number m) :: rest') ++ [x] by simp] at hz
      obtain ⟨rfl, -⟩ := List.append_inj' hz rfl
      refine hnew ?_
      simp only [List.map_append, List.map_cons, List.map_nil, List.mem_append, List.mem_cons, List.not_mem_nil, or_false,
        elementKey] at hk ⊢
      rcases hk with hk | hk
      · exact .inl hk
      · exact .inr (.inl hk)

/-- C105: a map read from a file that was cut off has no entry that the whole file does not have, and under each name the same
value or the list of the first ones of the blocks (except for one number, as above). -/
theorem c105_map (t : Ty) (ht : ProperTy t) (p r : Str) (v' v : DVal) (b : Body)
    (h' : deFromStr U P I ord' (.map t) p = .ok v') (h : deFromStr U P I ord (.map t) (p ++ r) = .ok v)
    (hb : parseStr U (p ++ r) = .ok b) (ha : TypesAdjacent (blocks b)) (hs : ∀ k, SafeField b (k, t)) :
    ∃ vs' vs, v' = .entries vs' ∧ v = .entries vs ∧ ∀ k w', (k, w') ∈ vs' → ∃ w, (k, w) ∈ vs ∧
      (Fewer w' w ∨ ∃ c n' n, CutNumber p r n' n ∧ c.str = k ∧ (c, .number n) ∈ attrs b) := by
  obtain ⟨b', hb', hv'⟩ := deFromStr_ok U P I ord' h'
  obtain ⟨b2, hb2, hv⟩ := deFromStr_ok U P I ord h
  rw [hb] at hb2; cases hb2
  obtain ⟨vs', rfl, -, hm'⟩ := c59_map P I ord' t b' v' hv'
  obtain ⟨vs, rfl, -, hm⟩ := c59_map P I ord t b v hv
  obtain ⟨hd, hc, hall⟩ := (c59_map_succeeds_iff P I ord t b).1 ⟨_, hv⟩
  refine ⟨vs', vs, rfl, rfl, fun k w' hk => ?_⟩
  obtain ⟨n', hn', hw'⟩ := (hm' k w').1 hk
  obtain ⟨b0, ex, hb0, hE, -, hx⟩ := left_of (c92_cut_off U p r b' b hb' hb)
  by_cases hj : some k = ex
  · obtain ⟨c, m', m, hcut, hck, hmem⟩ := hx k hj.symm
    obtain ⟨w, hw⟩ := hall k _ (.inl ⟨c, _, hmem, hck, rfl⟩)
    exact ⟨w, (hm k w).2 ⟨_, .inl ⟨c, _, hmem, hck, rfl⟩, hw⟩, .inr ⟨c, m', m, hcut, hck, hmem⟩⟩
  · rw [hE k hj] at hn'
    obtain ⟨n, hn⟩ := entry_left hb0 hn'
    obtain ⟨w, hw⟩ := hall k n hn
    have hr' := c68_deserialized_is_read P I ord' t ht n' w' hw'
    have hr := c68_deserialized_is_read P I ord t ht n w hw
    refine ⟨w, (hm k w).2 ⟨n, hn, hw⟩, .inl ?_⟩
    rcases hn' with ⟨c, e, hmem, hck, rfl⟩ | ⟨run', hl, rfl⟩
    · have := entry_left_attr hb0 hd hc (.inl ⟨c, e, hmem, hck, rfl⟩) hn
      subst this
      exact .same _ _ (reads_same ht hr' hr)
    · obtain ⟨hne, hpre, rfl⟩ := entry_left_blocks hb0 hc ha hl hn
      exact fewer_run hne hpre ht (hs k) hr' hr

theorem deFromStr_by {t : Ty} {s : Str} {b : Body} {v : DVal} (hb : parseStr U s = .ok b)
    (hv : deserialize P I ord t (.body b) = .ok v) : deFromStr U P I ord t s = .ok v := by
  unfold deFromStr; rw [hb]; exact hv

/-- An entry `c { v = "…" }`. -/
def cutBlock (v : Char) : BodyElement := .block (.borrowed ['c']) [] [.attribute (.borrowed ['v']) (.string (.ownedS [v]))]

/-- A struct with a list of blocks and a flag. -/
def cutTy : Ty := .struct [("c".toList, .seq (.struct [("v".toList, .string)])), ("on".toList, .option .bool)]

/-- What the block is read as. -/
def cutVal (v : Char) : DVal := .entries [("v".toList, .string [v])]

theorem cutTy_proper : ProperTy cutTy := by
  refine .struct _ (by decide) fun f hf => ?_
  simp only [List.mem_cons, List.not_mem_nil, or_false] at hf
  rcases hf with rfl | rfl
  · exact .seq _ (.struct _ (by decide) fun f hf => by
      simp only [List.mem_cons, List.not_mem_nil, or_false] at hf
      subst hf; exact .string)
  · exact .option _ .bool

theorem cut_read (P : F64Parse) (I : F64OfInt) :
    deFromStr asciiClass P I ord0 cutTy "c { v = \"1\" }\n".toList = .ok (.entries [("c".toList, .seq [cutVal '1']), ("on".toList, .none)]) ∧
    deFromStr asciiClass P I ord0 cutTy ("c { v = \"1\" }\n".toList ++ "c { v = \"2\" }\non = true\n".toList) =
      .ok (.entries [("c".toList, .seq [cutVal '1', cutVal '2']), ("on".toList, .some (.bool true))]) := by
  constructor
  · refine deFromStr_by asciiClass P I ord0 (b := [cutBlock '1']) (by decide +kernel) ?_
    rw [deserialize, deN_fuel P I ord0 _ _ _ _ 100000 (Nat.lt_succ_self _) (Nat.lt_succ_self _)]
    · rfl
    · decide +kernel
  · refine deFromStr_by asciiClass P I ord0 (b := [cutBlock '1', cutBlock '2', .attribute (.borrowed "on".toList) (.boolean true)])
      (by decide +kernel) ?_
    rw [deserialize, deN_fuel P I ord0 _ _ _ _ 100000 (Nat.lt_succ_self _) (Nat.lt_succ_self _)]
    · rfl
    · decide +kernel

/-- C105 fails if blocks of one type are not next to each other: then a different block is read from the file that was cut off. -/
theorem c105_not_if_scattered (P : F64Parse) (I : F64OfInt) :
    deFromStr asciiClass P I ord0 cutTy "c { v = \"1\" }\n".toList = .ok (.entries [("c".toList, .seq [cutVal '1']), ("on".toList, .none)]) ∧
    deFromStr asciiClass P I ord0 cutTy ("c { v = \"1\" }\n".toList ++ "d {}\nc { v = \"2\" }\n".toList) =
      .ok (.entries [("c".toList, .seq [cutVal '2']), ("on".toList, .none)]) := by
  refine ⟨(cut_read P I).1, ?_⟩
  refine deFromStr_by asciiClass P I ord0 (b := [cutBlock '1', .block (.borrowed ['d']) [] [], cutBlock '2']) (by decide +kernel) ?_
  rw [deserialize, deN_fuel P I ord0 _ _ _ _ 100000 (Nat.lt_succ_self _) (Nat.lt_succ_self _)]
  · rfl
  · decide +kernel

/-- Non-vacuity: a list that lost a block, an `Option` that is now `None`. -/
example (P : F64Parse) (I : F64OfInt) : ∃ vs' vs, DVal.entries [("c".toList, .seq [cutVal '1']), ("on".toList, .none)] = .entries vs' ∧
    DVal.entries [("c".toList, .seq [cutVal '1', cutVal '2']), ("on".toList, .some (.bool true))] = .entries vs ∧
    (AllRel FieldLeft vs' vs ∨ ∃ k n' n, CutNumber "c { v = \"1\" }\n".toList "c { v = \"2\" }\non = true\n".toList n' n ∧
      (k, .number n) ∈ attrs [cutBlock '1', cutBlock '2', .attribute (.borrowed "on".toList) (.boolean true)] ∧
      AllRel (fun x' x => x'.1 = x.1 ∧ (x.1 ≠ k.str → FieldLeft x' x)) vs' vs) := by
  refine c105_cut_config asciiClass P I ord0 ord0 _ cutTy_proper _ _ _ _ _ (cut_read P I).1 (cut_read P I).2 (by decide +kernel) ?_ ?_
  · have : blocks [cutBlock '1', cutBlock '2', .attribute (.borrowed "on".toList) (.boolean true)] =
        [⟨.borrowed ['c'], [], [.attribute (.borrowed ['v']) (.string (.ownedS ['1']))]⟩,
          ⟨.borrowed ['c'], [], [.attribute (.borrowed ['v']) (.string (.ownedS ['2']))]⟩] := rfl
    rw [this]
    intro pre a mid c post e _ x hx
    have hall : ∀ q ∈ pre ++ a :: mid ++ c :: post, q.type.str = ['c'] := by
      rw [← e]; intro q hq
      simp only [List.mem_cons, List.not_mem_nil, or_false] at hq
      rcases hq with rfl | rfl <;> rfl
    rw [hall x (by simp [hx]), hall a (by simp)]
  · intro f hf
    simp only [List.mem_cons, List.not_mem_nil, or_false] at hf
    rcases hf with rfl | rfl <;> exact .inl trivial

/-- a struct of leaves -/
def flagTy : Ty := .struct [("a".toList, .bool), ("b".toList, .option .string)]

theorem flag_read (P : F64Parse) (I : F64OfInt) :
    deFromStr asciiClass P I ord0 flagTy "a = true\n".toList = .ok (.entries [("a".toList, .bool true), ("b".toList, .none)]) ∧
    deFromStr asciiClass P I ord0 flagTy ("a = true\n".toList ++ "b = \"x\"\n".toList) =
      .ok (.entries [("a".toList, .bool true), ("b".toList, .some (.string ['x']))]) := by
  constructor
  · refine deFromStr_by asciiClass P I ord0 (b := [.attribute (.borrowed ['a']) (.boolean true)]) (by decide +kernel) ?_
    rw [deserialize, deN_fuel P I ord0 _ _ _ _ 100000 (Nat.lt_succ_self _) (Nat.lt_succ_self _)]
    · rfl
    · decide +kernel
  · refine deFromStr_by asciiClass P I ord0 (b := [.attribute (.borrowed ['a']) (.boolean true), .attribute (.borrowed ['b']) (.string (.ownedS ['x']))])
      (by decide +kernel) ?_
    rw [deserialize, deN_fuel P I ord0 _ _ _ _ 100000 (Nat.lt_succ_self _) (Nat.lt_succ_self _)]
    · rfl
    · decide +kernel

/-- Non-vacuity of the theorem on leaves. -/
example (P : F64Parse) (I : F64OfInt) := c105_leaves asciiClass P I ord0 ord0 _ (by decide) (fun f hf => by
  simp only [List.mem_cons, List.not_mem_nil, or_false] at hf
  rcases hf with rfl | rfl
  · exact .inl trivial
  · exact .inr ⟨_, rfl, trivial⟩) _ _ _ _ (flag_read P I).1 (flag_read P I).2 (.inl (by rintro ⟨c, u, e, h⟩; cases e; revert h; unfold NumberGoesOn; decide))

theorem one_read (P : F64Parse) (I : F64OfInt) :
    deFromStr asciiClass P I ord0 (.struct [("a".toList, .bool)]) "a = true".toList = .ok (.entries [("a".toList, .bool true)]) ∧
    deFromStr asciiClass P I ord0 (.struct [("a".toList, .bool)]) ("a = true".toList ++ "\n".toList) = .ok (.entries [("a".toList, .bool true)]) ∧
    deFromStr asciiClass P I ord0 (.map .bool) "a = true".toList = .ok (.entries [("a".toList, .bool true)]) ∧
    deFromStr asciiClass P I ord0 (.map .bool) ("a = true".toList ++ "\nb = false".toList) =
      .ok (.entries [("a".toList, .bool true), ("b".toList, .bool false)]) := by
  refine ⟨deFromStr_by asciiClass P I ord0 (b := [.attribute (.borrowed ['a']) (.boolean true)]) (by decide +kernel) ?_,
    deFromStr_by asciiClass P I ord0 (b := [.attribute (.borrowed ['a']) (.boolean true)]) (by decide +kernel) ?_,
    deFromStr_by asciiClass P I ord0 (b := [.attribute (.borrowed ['a']) (.boolean true)]) (by decide +kernel) ?_,
    deFromStr_by asciiClass P I ord0 (b := [.attribute (.borrowed ['a']) (.boolean true), .attribute (.borrowed ['b']) (.boolean false)])
      (by decide +kernel) ?_⟩
  all_goals
    rw [deserialize, deN_fuel P I ord0 _ _ _ _ 100000 (Nat.lt_succ_self _) (Nat.lt_succ_self _)]
    · rfl
    · decide +kernel

/-- Non-vacuity of the theorem on required leaves. -/
example (P : F64Parse) (I : F64OfInt) := c105_required_leaves asciiClass P I ord0 ord0 _ (by decide) (fun f hf => by
  simp only [List.mem_cons, List.not_mem_nil, or_false] at hf
  subst hf; trivial) _ _ _ _ (one_read P I).1 (one_read P I).2.1 (.inl (by rintro ⟨c, u, e, h⟩; cases e; revert h; unfold NumberGoesOn; decide))

/-- Non-vacuity of the end marker: the last line end can be missing. -/
example (P : F64Parse) (I : F64OfInt) : parseStr asciiClass "a = true".toList = .ok ([] ++ [.attribute (.borrowed ['a']) (.boolean true)]) :=
  c105_end_marker asciiClass P I ord0 _ (by decide) _ "\n".toList _ [] (.attribute (.borrowed ['a']) (.boolean true)) .bool (one_read P I).1
    (by decide +kernel) (by simp) (by simp) (by simp [elementKey]; rfl) (by simp)

/-- Non-vacuity of the theorem on maps. -/
example (P : F64Parse) (I : F64OfInt) := c105_map asciiClass P I ord0 ord0 .bool .bool _ _ _ _
  [.attribute (.borrowed ['a']) (.boolean true), .attribute (.borrowed ['b']) (.boolean false)] (one_read P I).2.2.1 (one_read P I).2.2.2
  (by decide +kernel) (by intro pre a mid c post e; simp [blocks] at e) (fun _ => .inl trivial)

end Verif.Props
