import Verif.Proofs.Failure
/-! # Which failure is reported: deserialization and the rules -/
set_option autoImplicit false

namespace Verif
open Spec

variable {P : F64Parse} {I : F64OfInt}

/-! ## the parts of types -/

theorem item_proper {t u : Ty} {i : Nat} (h : itemTy t i = some u) (hp : ProperTy t) : ProperTy u ∧ sizeOf u ≤ sizeOf t := by
  have hlist : ∀ ts : List Ty, ts[i]? = some u → (∀ t ∈ ts, ProperTy t) → ProperTy u ∧ sizeOf u ≤ sizeOf ts := by
    intro ts h hts
    have := List.mem_of_getElem? h
    exact ⟨hts u this, Nat.le_of_lt (List.sizeOf_lt_of_mem this)⟩
  cases t with
  | seq t => cases h; cases hp; exact ⟨‹_›, by simp⟩
  | ignored => cases h; exact ⟨hp, Nat.le_refl _⟩
  | any => cases h; exact ⟨hp, Nat.le_refl _⟩
  | bytes u =>
    cases h
    refine ⟨.int _, ?_⟩
    rw [← u.isU8]; exact sizeOf_u8 u
  | tuple ts =>
    cases hp with
    | tuple _ hts => obtain ⟨h1, h2⟩ := hlist ts h hts; exact ⟨h1, by simp; omega⟩
  | tupleStruct ts =>
    cases hp with
    | tupleStruct _ hts => obtain ⟨h1, h2⟩ := hlist ts h hts; exact ⟨h1, by simp; omega⟩
  | struct fs =>
    cases hp with
    | struct _ _ hfs =>
      have hm := List.mem_of_getElem? h
      obtain ⟨p, hp, rfl⟩ := List.mem_map.1 hm
      refine ⟨hfs p hp, ?_⟩
      have := List.sizeOf_lt_of_mem hp
      have h3 : sizeOf p.2 < sizeOf p := by cases p; simp; omega
      simp; omega
  | newtype t =>
    cases i with
    | zero => cases h; cases hp; exact ⟨‹_›, by simp⟩
    | succ i => cases h
  | _ => cases h

theorem entry_proper {t u : Ty} {k : Str} (h : entryTy t k = some u) (hp : ProperTy t) : ProperTy u ∧ sizeOf u ≤ sizeOf t := by
  cases t with
  | map t => cases h; cases hp; exact ⟨‹_›, by simp⟩
  | ignored => cases h; exact ⟨hp, Nat.le_refl _⟩
  | any => cases h; exact ⟨hp, Nat.le_refl _⟩
  | struct fs =>
    cases h
    refine ⟨?_, sizeOf_field⟩
    cases hp with
    | struct _ _ hfs =>
      cases hf : field? k fs with
      | none => exact .ignored
      | some u => exact hfs (k, u) (field?_mem hf)
  | _ => cases h

/-! ## calls -/

theorem not_wrapper {t : Ty} (h : ¬ Wrapper t) : (∀ t', t ≠ .option t') ∧ ∀ t', t ≠ .newtype t' :=
  ⟨fun t' ht => h (by rw [ht]; trivial), fun t' ht => h (by rw [ht]; trivial)⟩

theorem expr_forward {e : Expr} {t : Ty} (h : ¬ Wrapper t) (ht : ∀ es, e ≠ .tuple es) :
    e.deserialize P t.hint = e.deserializeAny P :=
  forward_any (not_wrapper h).1 (not_wrapper h).2 fun _ es _ he => absurd he (ht es)

/-- a call with a scalar is accepted, or it is an error of the visitor -/
theorem visit_scalar {g : Ty → Node → Res DeErr DVal} {t : Ty} {c : Call} (hc : c = .unit ∨ (∃ b, c = .bool b) ∨
    (∃ x, c = .f64 x) ∨ (∃ k, c = .i64 k) ∨ (∃ s, c = .borrowedStr s) ∨ (∃ s, c = .string s) ∨ (∃ s, c = .str s) ∨ ∃ s, c = .enum s) :
    (∃ v, visit I g t c = .ok v) ∨ visit I g t c = .error .custom := by
  rcases hc with rfl | ⟨b, rfl⟩ | ⟨x, rfl⟩ | ⟨k, rfl⟩ | ⟨s, rfl⟩ | ⟨s, rfl⟩ | ⟨s, rfl⟩ | ⟨s, rfl⟩
  · cases t <;> simp [visit]
  · cases t <;> simp [visit]
  · cases t <;> simp [visit]
  · cases t with
    | int T => simp only [visit]; split <;> simp
    | _ => simp [visit]
  · cases t with
    | char => rcases s with _ | ⟨c, _ | ⟨d, s⟩⟩ <;> simp [visit]
    | _ => simp [visit]
  · cases t with
    | char => rcases s with _ | ⟨c, _ | ⟨d, s⟩⟩ <;> simp [visit]
    | _ => simp [visit]
  · cases t with
    | char => rcases s with _ | ⟨c, _ | ⟨d, s⟩⟩ <;> simp [visit]
    | _ => simp [visit]
  · cases t with
    | enum vs => simp only [visit, visitVariant]; split <;> simp
    | _ => simp [visit]

theorem scalar_call {e : Expr} (h : Scalar P e) : ∃ c, e.deserializeAny P = .ok c ∧ (c = .unit ∨ (∃ b, c = .bool b) ∨
    (∃ x, c = .f64 x) ∨ (∃ k, c = .i64 k) ∨ (∃ s, c = .borrowedStr s) ∨ (∃ s, c = .string s) ∨ (∃ s, c = .str s) ∨ ∃ s, c = .enum s) := by
  cases e with
  | null => exact ⟨_, rfl, .inl rfl⟩
  | boolean b => exact ⟨_, rfl, by simp⟩
  | string s =>
    refine ⟨_, rfl, ?_⟩
    unfold deserializeString
    split <;> simp
  | number n =>
    rcases h with ⟨k, h⟩ | ⟨x, h⟩
    · exact ⟨_, integer_call h, by simp⟩
    · exact ⟨_, float_call h, by simp⟩
  | _ => exact h.elim

theorem number_fail {n : Number} : (n.isFloat = false → (∀ k, ¬ IsInteger n k) → deserializeNumber P n = .error .parseInt) ∧
    (n.isFloat = true → (∀ x, ¬ IsFloat P n x) → deserializeNumber P n = .error .parseFloat) := by
  unfold deserializeNumber
  constructor
  · intro hf h
    have hs : n.isSigned = true := by simpa [Number.isFloat] using hf
    rw [hf, hs]
    simp only [Bool.false_eq_true, if_false, if_true]
    cases hk : n.asInt ⟨true, 64⟩ with
    | none => rfl
    | some k => exact absurd ⟨hf, hk⟩ (h k)
  · intro hf h
    rw [if_pos hf]
    cases hk : P n.input.str with
    | none => rfl
    | some k => exact absurd ⟨hf, hk⟩ (h k)

theorem number_trichotomy (P : F64Parse) (n : Number) : Scalar P (.number n) ∨ (n.isFloat = false ∧ ∀ k, ¬ IsInteger n k) ∨
    (n.isFloat = true ∧ ∀ x, ¬ IsFloat P n x) := by
  cases hf : n.isFloat with
  | false =>
    by_cases h : ∃ k, IsInteger n k
    · exact .inl (.inl h)
    · exact .inr (.inl ⟨rfl, fun k hk => h ⟨k, hk⟩⟩)
  | true =>
    by_cases h : ∃ x, IsFloat P n x
    · exact .inl (.inr h)
    · exact .inr (.inr ⟨rfl, fun k hk => h ⟨k, hk⟩⟩)

theorem block_call_body (ord : HashOrder) {t : Ty} {c : BlockBody} {b : Body} (hu : Unlabelled c [b]) (ho : ∀ t', t ≠ .option t')
    (hs : ∀ t', t ≠ .seq t') : c.deserialize ord t.hint = .ok (.mapBody (.new ord b)) := by
  cases hu <;> cases t <;> first | rfl | exact absurd rfl (ho _) | exact absurd rfl (hs _)

theorem block_call_seq (ord : HashOrder) {t : Ty} {c : BlockBody} {bs : List Body} (hu : Unlabelled c bs)
    (ho : ∀ t', t ≠ .option t') (hl : bs.length ≠ 1 ∨ ∃ t', t = .seq t') (hr : ¬ SeqRefused t c) :
    c.deserialize ord t.hint = .ok (.seq (bs.map .body)) := by
  cases hu with
  | body bs =>
    cases t <;> first | exact absurd rfl (ho _) | rfl | skip
    all_goals
      rcases bs with _ | ⟨b, _ | ⟨b', bs⟩⟩
      · rfl
      · rcases hl with hl | ⟨t', hl⟩
        · exact absurd rfl hl
        · cases hl
      · rfl
  | labels bs =>
    have : bs.length ≠ 1 := by
      rcases hl with hl | ⟨t', rfl⟩
      · exact hl
      · intro h
        obtain ⟨b, rfl⟩ := List.length_eq_one_iff.1 h
        exact hr ⟨⟨t', rfl⟩, b, [], rfl⟩
    rcases bs with _ | ⟨b, _ | ⟨b', bs⟩⟩
    · cases t <;> first | exact absurd rfl (ho _) | rfl
    · exact absurd rfl this
    · cases t <;> first | exact absurd rfl (ho _) | rfl

theorem block_call_labelled (ord : HashOrder) {t : Ty} {bs : List Body} {m : List (BlockLabel × BlockBody)} (hm : m ≠ [])
    (ho : ∀ t', t ≠ .option t') : (BlockBody.labels bs m).deserialize ord t.hint = .panic := by
  cases m with
  | nil => exact absurd rfl hm
  | cons x m => cases t <;> first | exact absurd rfl (ho _) | rfl

theorem key_call (t : Ty) (s : CowStr) : ∃ c, keyDeserialize t.hint s = .ok c ∧ (c = .unit ∨ (∃ b, c = .bool b) ∨
    (∃ x, c = .f64 x) ∨ (∃ k, c = .i64 k) ∨ (∃ s, c = .borrowedStr s) ∨ (∃ s, c = .string s) ∨ (∃ s, c = .str s) ∨ ∃ s, c = .enum s) := by
  unfold keyDeserialize
  split
  · exact ⟨_, rfl, by simp⟩
  · refine ⟨_, rfl, ?_⟩
    split <;> simp

/-! ## the rules are right -/

theorem deserialize_some {ord : HashOrder} {t : Ty} {e : Expr} (he : e ≠ .null) :
    deserialize P I ord (.option t) (.expr e) = (deserialize P I ord t (.expr e)).map .some := by
  rw [deserialize_eq]
  cases e <;> first | exact absurd rfl he | rfl

theorem deserialize_newtype {ord : HashOrder} {t : Ty} {e : Expr} :
    deserialize P I ord (.newtype t) (.expr e) = deserialize P I ord t (.expr e) := by
  rw [deserialize_eq]; rfl

theorem deserialize_someBlock {ord : HashOrder} {t : Ty} {c : BlockBody} (hc : c.lenBlocks ≠ 0) :
    deserialize P I ord (.option t) (.block c) = (deserialize P I ord t (.block c)).map .some := by
  rw [deserialize_eq]
  simp only [Node.deserialize, Ty.hint, BlockBody.deserialize, if_neg hc]
  rfl

theorem deserialize_call {ord : HashOrder} {t : Ty} {n : Node} {c : Call} (hc : n.deserialize P ord t.hint = .ok c) :
    deserialize P I ord t n = visit I (deserialize P I ord) t c := by
  rw [deserialize_eq, hc]; rfl

theorem not_read {ord : HashOrder} {t : Ty} {n : Node} (hp : ProperTy t) :
    (∀ v, ¬ Reads P I t n v) ↔ ∀ v, deserialize P I ord t n ≠ .ok v := by
  have := Props.c68_succeeds_iff P I ord t hp n
  constructor
  · intro h v hv; obtain ⟨w, hw⟩ := this.1 ⟨v, hv⟩; exact h w hw
  · intro h v hv; obtain ⟨w, hw⟩ := this.2 ⟨v, hv⟩; exact h w hw

theorem items_iff {ord : HashOrder} {t : Ty} {ns : List Node} (hp : ProperTy t) : ItemsRead P I t ns ↔
    ∀ (i : Nat) m u, ns[i]? = some m → itemTy t i = some u → ∃ v, deserialize P I ord u m = .ok v := by
  constructor
  · intro h i m u h1 h2
    exact (Props.c68_succeeds_iff P I ord u (item_proper h2 hp).1 m).2 (h i m u h1 h2)
  · intro h i m u h1 h2
    exact (Props.c68_succeeds_iff P I ord u (item_proper h2 hp).1 m).1 (h i m u h1 h2)

theorem entries_iff {ord : HashOrder} {t : Ty} {es : List (Str × Node)} (hp : ProperTy t) : EntriesRead P I t es ↔
    ∀ p ∈ es, ∀ u, entryTy t p.1 = some u → ∃ v, deserialize P I ord u p.2 = .ok v := by
  constructor
  · intro h p h1 u h2
    exact (Props.c68_succeeds_iff P I ord u (entry_proper h2 hp).1 p.2).2 (h p h1 u h2)
  · intro h p h1 u h2
    exact (Props.c68_succeeds_iff P I ord u (entry_proper h2 hp).1 p.2).1 (h p h1 u h2)

mutual
theorem fails_res (ord : HashOrder) : ∀ {t : Ty} {n : Node} {F : Failure}, Fails P I (OrderOf ord) t n F → ProperTy t →
    deserialize P I ord t n = F.res
  | _, _, _, .integer t n hw h1 h2, _ => by
    rw [deserialize_eq]
    show (Expr.deserialize P t.hint (.number n)).bind _ = _
    rw [expr_forward hw (by simp)]
    show (deserializeNumber P n).bind _ = _
    rw [number_fail.1 h1 h2]; rfl
  | _, _, _, .float t n hw h1 h2, _ => by
    rw [deserialize_eq]
    show (Expr.deserialize P t.hint (.number n)).bind _ = _
    rw [expr_forward hw (by simp)]
    show (deserializeNumber P n).bind _ = _
    rw [number_fail.2 h1 h2]; rfl
  | _, _, _, .scalar t e hw hs hr, hp => by
    obtain ⟨c, hc, hs'⟩ := scalar_call hs
    have hd := deserialize_call (I := I) (ord := ord) (t := t) (n := .expr e) (c := c) (by
      show e.deserialize P t.hint = _
      rw [expr_forward hw (by rintro es rfl; exact hs)]; exact hc)
    rw [hd]
    rcases visit_scalar (I := I) (g := deserialize P I ord) (t := t) hs' with ⟨v, hv⟩ | h
    · exact absurd (hd.trans hv) ((not_read hp).1 hr v)
    · exact h
  | _, _, _, .some t e F he h, hp => by
    cases hp with
    | option _ hp => rw [deserialize_some he, map_res]; exact fails_res ord h hp
  | _, _, _, .newtype t e F h, hp => by
    cases hp with
    | newtype _ hp => rw [deserialize_newtype]; exact fails_res ord h hp
  | _, _, _, .length t ts es ht hl, _ => by
    rw [deserialize_eq]
    have : (Node.expr (.tuple es)).deserialize P ord t.hint = deserializeTuple es (some ts.length) := by
      rcases ht with rfl | rfl <;> rfl
    rw [this, deserializeTuple]
    simp only [if_pos hl]; rfl
  | _, _, _, .tuple t es F hw ht h, hp => by
    rw [deserialize_call (c := .seq (es.map .expr))]
    · exact failsSeq_res ord h hp
    · show Expr.deserialize P t.hint (.tuple es) = _
      rw [forward_any (not_wrapper hw).1 (not_wrapper hw).2 fun ts es' hts he => by cases he; exact ht ts hts]
      rfl
  | _, _, _, .object t o es s F hw hv h, hp => by
    obtain ⟨es', hD, he⟩ := object_visit_drains hv
    rw [deserialize_call (c := .mapObject (.new o))]
    · exact failsMap_res ord h hp hD he
    · show Expr.deserialize P t.hint (.object o) = _
      rw [expr_forward hw (by simp)]; rfl
  | _, _, _, .body t b es s F hv h, hp => by
    obtain ⟨es', hD, he⟩ := body_visit_drains hv
    rw [deserialize_call (c := .mapBody (.new ord b)) rfl]
    exact failsMap_res ord h hp hD he
  | _, _, _, .labelled t bs m ho hm, _ => by
    rw [deserialize_eq]
    show (BlockBody.deserialize ord t.hint (.labels bs m)).bind _ = _
    rw [block_call_labelled ord hm ho]; rfl
  | _, _, _, .block t c b F hu ho hs h, hp => by
    have := fails_res ord h hp
    rw [deserialize_call (n := .block c) (c := .mapBody (.new ord b)) (block_call_body ord hu ho hs)]
    rwa [deserialize_call (c := .mapBody (.new ord b)) rfl] at this
  | _, _, _, .refused t b, _ => by
    rw [deserialize_eq]; rfl
  | _, _, _, .blocks t c bs F hu ho hl hr h, hp => by
    rw [deserialize_call (n := .block c) (c := .seq (bs.map .body)) (block_call_seq ord hu ho hl hr)]
    exact failsSeq_res ord h hp
  | _, _, _, .someBlock t c F hc h, hp => by
    cases hp with
    | option _ hp => rw [deserialize_someBlock hc, map_res]; exact fails_res ord h hp
  | _, _, _, .key t s hr, hp => by
    obtain ⟨c, hc, hs'⟩ := key_call t s
    have hd := deserialize_call (P := P) (I := I) (ord := ord) (t := t) (n := .key s) (c := c) hc
    rw [hd]
    rcases visit_scalar (I := I) (g := deserialize P I ord) (t := t) hs' with ⟨v, hv⟩ | h
    · exact absurd (hd.trans hv) ((not_read hp).1 hr v)
    · exact h

theorem failsSeq_res (ord : HashOrder) : ∀ {t : Ty} {ns : List Node} {F : Failure}, FailsSeq P I (OrderOf ord) t ns F →
    ProperTy t → visit I (deserialize P I ord) t (.seq ns) = F.res
  | _, _, _, .item t u pre rest n F hu hr h, hp =>
    visit_seq_res.2 (.inl ⟨pre, n, rest, u, rfl, hu, (items_iff hp).1 hr, fails_res ord h (item_proper hu hp).1⟩)
  | _, _, _, .tooFew t ns k hk hl hr, hp => visit_seq_res.2 (.inr (.inl ⟨rfl, k, hk, hl, (items_iff hp).1 hr⟩))
  | _, _, _, .other t ns h, hp => visit_seq_res.2 (.inr (.inr ⟨rfl, h⟩))

theorem failsMap_res (ord : HashOrder) : ∀ {t : Ty} {es : List (Str × Node)} {s : Stop} {F : Failure},
    FailsMap P I (OrderOf ord) t es s F → ProperTy t → ∀ {a : MapAcc} {es' : List (CowStr × Node)}, Drains a es' s →
      named es' = es → visit I (deserialize P I ord) t a.call = F.res
  | _, _, _, _, .entry t u pre rest k n s F hu hr h, hp, _, _, hD, he =>
    (visit_map_res hD).2 (he ▸ .inl ⟨pre, k, n, rest, u, rfl, hu, (entries_iff hp).1 hr, fails_res ord h (entry_proper hu hp).1⟩)
  | _, _, _, _, .stop t es F hk hr, hp, _, _, hD, he =>
    (visit_map_res hD).2 (he ▸ .inr (.inl ⟨hk, (entries_iff hp).1 hr, rfl⟩))
  | _, _, _, _, .missing fs es k t hr h1 h2 h3, hp, _, _, hD, he =>
    (visit_map_res hD).2 (he ▸ .inr (.inr (.inl ⟨rfl, rfl, (entries_iff hp).1 hr, fs, k, t, rfl, h1, h2, h3⟩)))
  | _, _, _, _, .other t es s h, hp, _, _, hD, he => (visit_map_res hD).2 (.inr (.inr (.inr ⟨rfl, h⟩)))
end

/-! ## the rules are complete -/

theorem seq_fails {ord : HashOrder} {t : Ty} {ns : List Node} {F : Failure} (hp : ProperTy t)
    (hf : ∀ u n, n ∈ ns → sizeOf u ≤ sizeOf t → ProperTy u → deserialize P I ord u n = F.res → Fails P I (OrderOf ord) u n F)
    (h : visit I (deserialize P I ord) t (.seq ns) = F.res) : FailsSeq P I (OrderOf ord) t ns F := by
  rcases visit_seq_res.1 h with ⟨pre, n, post, u, rfl, h1, h2, h3⟩ | ⟨rfl, k, h1, h2, h3⟩ | ⟨rfl, h1⟩
  · exact .item t u pre post n F h1 ((items_iff hp).2 h2)
      (hf u n (by simp) (item_proper h1 hp).2 (item_proper h1 hp).1 h3)
  · exact .tooFew t ns k h1 h2 ((items_iff hp).2 h3)
  · exact .other t ns h1

theorem map_fails {ord : HashOrder} {t : Ty} {a : MapAcc} {es : List (CowStr × Node)} {s : Stop} {F : Failure} (hp : ProperTy t)
    (hD : Drains a es s)
    (hf : ∀ u p, p ∈ es → sizeOf u ≤ sizeOf t → ProperTy u → deserialize P I ord u p.2 = F.res →
      Fails P I (OrderOf ord) u p.2 F)
    (h : visit I (deserialize P I ord) t a.call = F.res) : FailsMap P I (OrderOf ord) t (named es) s F := by
  rcases (visit_map_res hD).1 h with ⟨pre, k, n, post, u, h0, h1, h2, h3⟩ | ⟨h1, h2, rfl⟩ |
    ⟨rfl, rfl, h1, fs, k, t', rfl, h2, h3, h4⟩ | ⟨rfl, h1⟩
  · obtain ⟨pre', k', post', rfl, h5, h6⟩ := named_split h0
    rw [h0]
    exact .entry t u pre post k n s F h1 ((entries_iff hp).2 h2)
      (hf u (k', n) (by simp) (entry_proper h1 hp).2 (entry_proper h1 hp).1 h3)
  · exact .stop t _ F h1 ((entries_iff hp).2 h2)
  · exact .missing fs _ k t' ((entries_iff hp).2 h1) h2 h3 h4
  · exact .other t _ s h1

theorem drains_has {a : MapAcc} {es : List (CowStr × Node)} {s : Stop} (hD : Drains a es s) : ∀ p ∈ es, a.Has p.1 p.2 := by
  obtain ⟨es', s', hD', h⟩ := drains_exists a
  obtain ⟨rfl, -⟩ := drains_functional hD hD'
  exact h

theorem res_fails (ord : HashOrder) : ∀ (N : Nat) (t : Ty) (n : Node) (F : Failure), sizeOf t + n.measure < N →
    ProperTy t → deserialize P I ord t n = F.res → Fails P I (OrderOf ord) t n F := by
  intro N
  induction N with
  | zero => intros; omega
  | succ N ih =>
    intro t n F hN hp h
    have hbody : ∀ b, (Node.body b).measure ≤ n.measure → deserialize P I ord t (.body b) = F.res →
        Fails P I (OrderOf ord) t (.body b) F := by
      intro b hb h
      obtain ⟨es, s, hD, hv⟩ := body_visit ord b
      rw [deserialize_call (c := .mapBody (.new ord b)) rfl] at h
      refine .body t b _ s F hv (map_fails hp hD (fun u p hp' hu hpu hw => ih u p.2 F ?_ hpu hw) h)
      have := (deserialize_child (P := P) (ord := ord) (h := t.hint) (n := .body b) rfl).1 p.2 ⟨p.1, drains_has hD p hp'⟩
      omega
    cases n with
    | expr e =>
      by_cases hw : Wrapper t
      · cases t with
        | option t =>
          cases hp with
          | option _ hp =>
            by_cases he : e = .null
            · subst he
              rw [deserialize_eq] at h
              exact absurd h.symm res_ne_ok
            · rw [deserialize_some he, map_res] at h
              exact .some t e F he (ih t _ F (by simp only [Ty.option.sizeOf_spec] at hN; omega) hp h)
        | newtype t =>
          cases hp with
          | newtype _ hp =>
            rw [deserialize_newtype] at h
            exact .newtype t e F (ih t _ F (by simp only [Ty.newtype.sizeOf_spec] at hN; omega) hp h)
        | _ => exact hw.elim
      have hscalar : Scalar P e → Fails P I (OrderOf ord) t (.expr e) F := by
        intro hs
        obtain ⟨c, hc, hs'⟩ := scalar_call hs
        have hd := deserialize_call (I := I) (ord := ord) (t := t) (n := .expr e) (c := c) (by
          show e.deserialize P t.hint = _
          rw [expr_forward hw (by rintro es rfl; exact hs)]; exact hc)
        rcases visit_scalar (I := I) (g := deserialize P I ord) (t := t) hs' with ⟨v, hv⟩ | h'
        · rw [hd, hv] at h; exact absurd h.symm res_ne_ok
        · have hF := hd.trans h'
          rw [h] at hF
          have : F = .error .custom := error_res.1 hF.symm
          subst this
          exact .scalar t e hw hs ((not_read hp).2 fun v hv => by rw [h] at hv; exact res_ne_ok hv)
      cases e with
      | null => exact hscalar trivial
      | boolean b => exact hscalar trivial
      | string s => exact hscalar trivial
      | number n =>
        rcases number_trichotomy P n with hs | ⟨h1, h2⟩ | ⟨h1, h2⟩
        · exact hscalar hs
        · have hF := fails_res ord (.integer (P := P) (I := I) t n hw h1 h2) hp
          rw [h] at hF
          rw [res_inj hF]
          exact .integer t n hw h1 h2
        · have hF := fails_res ord (.float (P := P) (I := I) t n hw h1 h2) hp
          rw [h] at hF
          rw [res_inj hF]
          exact .float t n hw h1 h2
      | tuple es =>
        by_cases hl : ∃ ts, (t = .tuple ts ∨ t = .tupleStruct ts) ∧ es.length ≠ ts.length
        · obtain ⟨ts, ht, hl⟩ := hl
          have hF := fails_res ord (.length (P := P) (I := I) t ts es ht hl) hp
          rw [h] at hF
          rw [res_inj hF]
          exact .length t ts es ht hl
        · have hl : ∀ ts, t = .tuple ts ∨ t = .tupleStruct ts → es.length = ts.length := fun ts ht =>
            Classical.byContradiction fun h => hl ⟨ts, ht, h⟩
          have hc : (Node.expr (.tuple es)).deserialize P ord t.hint = .ok (.seq (es.map .expr)) := by
            show Expr.deserialize P t.hint (.tuple es) = _
            rw [forward_any (not_wrapper hw).1 (not_wrapper hw).2 fun ts es' hts he => by cases he; exact hl ts hts]
            rfl
          rw [deserialize_call hc] at h
          refine .tuple t es F hw hl (seq_fails hp (fun u m hm hu hpu hw => ih u m F ?_ hpu hw) h)
          have := (deserialize_child hc).1 m hm
          omega
      | object o =>
        have hc : (Node.expr (.object o)).deserialize P ord t.hint = .ok (.mapObject (.new o)) := by
          show Expr.deserialize P t.hint (.object o) = _
          rw [expr_forward hw (by simp)]; rfl
        obtain ⟨es, s, hD, hv⟩ := object_visit o
        rw [deserialize_call hc] at h
        refine .object t o _ s F hw hv (map_fails (a := .object (.new o)) hp hD (fun u p hp' hu hpu hw => ih u p.2 F ?_ hpu hw) h)
        have := (deserialize_child hc).1 p.2 ⟨p.1, drains_has hD p hp'⟩
        omega
    | body b => exact hbody b (Nat.le_refl _) h
    | key s =>
      obtain ⟨c, hc, hs'⟩ := key_call t s
      have hd := deserialize_call (P := P) (I := I) (ord := ord) (t := t) (n := .key s) (c := c) hc
      rcases visit_scalar (I := I) (g := deserialize P I ord) (t := t) hs' with ⟨v, hv⟩ | h'
      · rw [hd, hv] at h; exact absurd h.symm res_ne_ok
      · have hF := hd.trans h'
        rw [h] at hF
        have : F = .error .custom := error_res.1 hF.symm
        subst this
        exact .key t s ((not_read hp).2 fun v hv => by rw [h] at hv; exact res_ne_ok hv)
    | block c =>
      by_cases ho : ∃ t', t = .option t'
      · obtain ⟨t', rfl⟩ := ho
        cases hp with
        | option _ hp =>
          by_cases hl : c.lenBlocks = 0
          · rw [deserialize_eq] at h
            simp only [Node.deserialize, Ty.hint, BlockBody.deserialize, if_pos hl] at h
            exact absurd h.symm res_ne_ok
          · rw [deserialize_someBlock hl, map_res] at h
            exact .someBlock t' c F hl (ih t' _ F (by simp only [Ty.option.sizeOf_spec] at hN; omega) hp h)
      have ho : ∀ t', t ≠ .option t' := fun t' h => ho ⟨t', h⟩
      have hseq : ∀ bs, Unlabelled c bs → (bs.length ≠ 1 ∨ ∃ t', t = .seq t') → ¬ SeqRefused t c →
          Fails P I (OrderOf ord) t (.block c) F := by
        intro bs hu hl hr
        have hc := block_call_seq ord hu ho hl hr
        rw [deserialize_call (n := .block c) hc] at h
        refine .blocks t c bs F hu ho hl hr (seq_fails hp (fun u m hm hu hpu hw => ih u m F ?_ hpu hw) h)
        have := (deserialize_child (P := P) (n := .block c) hc).1 m hm
        omega
      have hone : ∀ b, Unlabelled c [b] → (∀ t', t ≠ .seq t') → Fails P I (OrderOf ord) t (.block c) F := by
        intro b hu hs
        rw [deserialize_call (n := .block c) (block_call_body ord hu ho hs)] at h
        refine .block t c b F hu ho hs (hbody b ?_ ((deserialize_call (c := .mapBody (.new ord b)) rfl).trans h))
        cases hu <;> simp [Node.measure, BlockBody.flatIter, BlockBody.flatIterLabels, maxSize] <;> omega
      cases c with
      | body bs =>
        by_cases hl : bs.length ≠ 1 ∨ ∃ t', t = .seq t'
        · exact hseq bs (.body bs) hl (by rintro ⟨-, b, m, h⟩; cases h)
        · have h1 : bs.length = 1 := Classical.byContradiction fun h => hl (.inl h)
          obtain ⟨b, rfl⟩ := List.length_eq_one_iff.1 h1
          exact hone b (.body [b]) fun t' h => hl (.inr ⟨t', h⟩)
      | labels bs m =>
        by_cases hm : m = []
        · subst hm
          by_cases h1 : bs.length = 1
          · obtain ⟨b, rfl⟩ := List.length_eq_one_iff.1 h1
            by_cases hs : ∃ t', t = .seq t'
            · obtain ⟨t', rfl⟩ := hs
              rw [deserialize_eq] at h
              have : F = .error .custom := error_res.1 (by rw [← h]; rfl)
              subst this
              exact .refused t' b
            · exact hone b (.labels [b]) fun t' h => hs ⟨t', h⟩
          · exact hseq bs (.labels bs) (.inl h1) (by
              rintro ⟨-, b, m, h⟩; cases h; exact h1 rfl)
        · have hF := fails_res ord (.labelled (P := P) (I := I) t bs m ho hm) hp
          rw [h] at hF
          rw [res_inj hF]
          exact .labelled t bs m ho hm

end Verif
