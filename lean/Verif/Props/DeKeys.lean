import Verif.Proofs.DeKeys
import Verif.Props.Bytes
import Verif.Props.Failure
import Verif.Props.ObjectTypes
/-!
# Maps with any type of keys: C97
-/
set_option autoImplicit false

namespace Verif.Props
open Verif Spec

section
variable {P : F64Parse} {I : F64OfInt} {ord : HashOrder}

/-- The two kinds of maps visit the same entries, or neither is a map. -/
theorem mapOf_cases (P : F64Parse) (I : F64OfInt) (ord : HashOrder) (K t : Ty) (n : Node) :
    (∃ es s, deserialize P I ord (.map t) n = (runEntries (fun _ => deserialize P I ord t) es s).map .entries ∧
      deserializeMapOf P I ord K t n = runPairs (fun k => deserialize P I ord K (.key k)) (deserialize P I ord t) es s) ∨
    (∃ e, deserialize P I ord (.map t) n = .error e ∧ deserializeMapOf P I ord K t n = .error e) ∨
    (deserialize P I ord (.map t) n = .panic ∧ deserializeMapOf P I ord K t n = .panic) ∨
    (deserialize P I ord (.map t) n = .diverge ∧ deserializeMapOf P I ord K t n = .diverge) := by
  have hm : deserialize P I ord (.map t) n = (n.deserialize P ord .forward).bind (visit I (deserialize P I ord) (.map t)) :=
    deserialize_eq ..
  rw [hm]
  unfold deserializeMapOf
  cases n.deserialize P ord .forward with
  | ok c =>
    cases c with
    | mapObject a =>
      obtain ⟨es, s, hD, -⟩ := drains_exists (.object a)
      refine .inl ⟨es, s, ?_, pairLoop_eq hD (Nat.lt_succ_self _)⟩
      show (entryLoop (fun _ => deserialize P I ord t) _ _).map DVal.entries = _
      rw [entryLoop_eq hD (Nat.lt_succ_self _)]
    | mapBody a =>
      obtain ⟨es, s, hD, -⟩ := drains_exists (.body a)
      refine .inl ⟨es, s, ?_, pairLoop_eq hD (Nat.lt_succ_self _)⟩
      show (entryLoop (fun _ => deserialize P I ord t) _ _).map DVal.entries = _
      rw [entryLoop_eq hD (Nat.lt_succ_self _)]
    | _ => exact .inr (.inl ⟨_, rfl, rfl⟩)
  | error e => exact .inr (.inl ⟨e, rfl, rfl⟩)
  | panic => exact .inr (.inr (.inl ⟨rfl, rfl⟩))
  | diverge => exact .inr (.inr (.inr ⟨rfl, rfl⟩))

theorem KeysRead.cons_iff {K : Ty} {e : Str × DVal} {es : List (Str × DVal)} {p : DVal × DVal} {ps : List (DVal × DVal)} :
    KeysRead K (e :: es) (p :: ps) ↔ (KeyReads e.1 K p.1 ∧ p.2 = e.2) ∧ KeysRead K es ps := by
  unfold KeysRead
  simp only [List.length_cons, Nat.add_right_cancel_iff, List.zip_cons_cons, List.forall_mem_cons]
  exact and_left_comm

theorem runPairs_ok {K t : Ty} {es : List (CowStr × Node)} {s : Stop} {ps : List (DVal × DVal)} :
    runPairs (fun k => deserialize P I ord K (.key k)) (deserialize P I ord t) es s = .ok ps ↔
      ∃ vs, runEntries (fun _ => deserialize P I ord t) es s = .ok vs ∧ KeysRead K vs ps := by
  induction es generalizing ps with
  | nil =>
    cases s with
    | done =>
      simp only [runPairs, runEntries, Res.ok.injEq]
      constructor
      · rintro rfl; exact ⟨[], rfl, rfl, by simp⟩
      · rintro ⟨vs, rfl, h, -⟩; exact (List.length_eq_zero_iff.1 h).symm
    | error e => simp [runPairs, runEntries]
    | panicked => simp [runPairs, runEntries]
  | cons p es ih =>
    obtain ⟨k, n⟩ := p
    simp only [runPairs, runEntries, bind_ok, map_ok]
    constructor
    · rintro ⟨kv, h1, v, h2, ps, h3, rfl⟩
      obtain ⟨vs, h4, h5⟩ := ih.1 h3
      exact ⟨(k.str, v) :: vs, ⟨v, h2, vs, h4, rfl⟩, KeysRead.cons_iff.2 ⟨⟨(key_reads.1 kv).1 h1, rfl⟩, h5⟩⟩
    · rintro ⟨_, ⟨v, h2, vs, h4, rfl⟩, h5⟩
      cases ps with
      | nil => cases h5.1
      | cons p ps =>
        obtain ⟨⟨h6, h7⟩, h8⟩ := KeysRead.cons_iff.1 h5
        obtain ⟨kv, w⟩ := p
        cases h7
        exact ⟨kv, (key_reads.1 kv).2 h6, v, h2, ps, ih.2 ⟨vs, h4, h8⟩, rfl⟩

theorem runPairs_fail {K t : Ty} {es : List (CowStr × Node)} {s : Stop} :
    (∀ e, runEntries (fun _ => deserialize P I ord t) es s = .error e →
      runPairs (fun k => deserialize P I ord K (.key k)) (deserialize P I ord t) es s = .error e ∨
      ((∃ k : Str, ¬ ∃ v, KeyReads k K v) ∧
        runPairs (fun k => deserialize P I ord K (.key k)) (deserialize P I ord t) es s = .error .custom)) ∧
    (runEntries (fun _ => deserialize P I ord t) es s = .panic →
      runPairs (fun k => deserialize P I ord K (.key k)) (deserialize P I ord t) es s = .panic ∨
      ((∃ k : Str, ¬ ∃ v, KeyReads k K v) ∧
        runPairs (fun k => deserialize P I ord K (.key k)) (deserialize P I ord t) es s = .error .custom)) ∧
    (∀ vs, runEntries (fun _ => deserialize P I ord t) es s = .ok vs →
      (∃ ps, runPairs (fun k => deserialize P I ord K (.key k)) (deserialize P I ord t) es s = .ok ps) ∨
      ((∃ p ∈ vs, ¬ ∃ v, KeyReads p.1 K v) ∧
        runPairs (fun k => deserialize P I ord K (.key k)) (deserialize P I ord t) es s = .error .custom)) := by
  induction es with
  | nil => cases s <;> simp [runPairs, runEntries]
  | cons p es ih =>
    obtain ⟨k, n⟩ := p
    simp only [runPairs, runEntries]
    by_cases hk : ∃ v, KeyReads k.str K v
    · obtain ⟨kv, hk⟩ := hk
      rw [(key_reads.1 kv).2 hk]
      cases deserialize P I ord t n with
      | error e => exact ⟨fun e h => by cases h; exact .inl rfl, fun h => (by cases h), fun vs h => (by cases h)⟩
      | panic => exact ⟨fun e h => (by cases h), fun h => .inl rfl, fun vs h => (by cases h)⟩
      | diverge => exact ⟨fun e h => (by cases h), fun h => (by cases h), fun vs h => (by cases h)⟩
      | ok v =>
        simp only [Res.bind]
        obtain ⟨ih1, ih2, ih3⟩ := ih
        cases hr : runEntries (fun _ => deserialize P I ord t) es s with
        | error e =>
          refine ⟨fun e' h => ?_, fun h => (by cases h), fun vs h => (by cases h)⟩
          cases h
          rcases ih1 e hr with h | ⟨hx, h⟩
          · rw [h]; exact .inl rfl
          · rw [h]; exact .inr ⟨hx, rfl⟩
        | panic =>
          refine ⟨fun e' h => (by cases h), fun h => ?_, fun vs h => (by cases h)⟩
          rcases ih2 hr with h | ⟨hx, h⟩
          · rw [h]; exact .inl rfl
          · rw [h]; exact .inr ⟨hx, rfl⟩
        | diverge => exact ⟨fun e h => (by cases h), fun h => (by cases h), fun vs h => (by cases h)⟩
        | ok vs =>
          refine ⟨fun e' h => (by cases h), fun h => (by cases h), fun vs' h => ?_⟩
          cases h
          rcases ih3 vs hr with ⟨ps, h⟩ | ⟨⟨p, hp, hx⟩, h⟩
          · rw [h]; exact .inl ⟨_, rfl⟩
          · rw [h]; exact .inr ⟨⟨p, List.mem_cons_of_mem _ hp, hx⟩, rfl⟩
    · rw [key_reads.2 hk]
      refine ⟨fun e _ => .inr ⟨⟨_, hk⟩, rfl⟩, fun _ => .inr ⟨⟨_, hk⟩, rfl⟩, fun vs h => .inr ⟨?_, rfl⟩⟩
      obtain ⟨v, -, h⟩ := bind_ok.1 h
      obtain ⟨vs', -, rfl⟩ := map_ok.1 h
      exact ⟨_, List.mem_cons_self .., hk⟩

/-- Distinct names give distinct keys, unless the keys are thrown away. -/
theorem keyReads_inj {K : Ty} (hK : K ≠ .ignored) {s s' : Str} {v : DVal} (h : KeyReads s K v) (h' : KeyReads s' K v) : s = s' := by
  cases h with
  | string => cases h'; rfl
  | char c h => cases h' with | char _ h' => rw [h, h']
  | enum vs h => cases h'; rfl
  | any => cases h'; rfl
  | ignored => exact absurd rfl hK
  | bytes u =>
    have : buffer (utf8 s) = buffer (utf8 s') := by
      generalize hv : DVal.seq ((utf8 s).map fun b : Nat => .int b) = w at h'
      cases h' with | bytes _ => exact hv
    have := congrArg fromUtf8 (buffer_inj this)
    rw [fromUtf8_utf8, fromUtf8_utf8] at this
    exact Option.some.inj this

/-- No name occurs twice in a map that is read. -/
theorem map_names_nodup {t : Ty} {n : Node} {es : List (Str × DVal)} (h : deserialize P I ord (.map t) n = .ok (.entries es)) :
    (es.map Prod.fst).Nodup := by
  have hb : ∀ b, deserialize P I ord (.map t) (.body b) = .ok (.entries es) → (es.map Prod.fst).Nodup := fun b hb => by
    obtain ⟨vs, hv, hn, -⟩ := c59_map P I ord t b _ hb
    cases hv; exact hn
  cases n with
  | body b => exact hb b h
  | expr e =>
    cases e with
    | object o =>
      obtain ⟨l, vs, -, hd, hv, hr⟩ := (c59_map_from_object P I ord t o _).1 h
      cases hv
      have hk : ∀ {l : List (CowStr × Expr)} {es : List (Str × DVal)},
          AllRel (fun p q => q.1 = p.1.str ∧ deserialize P I ord t (.expr p.2) = .ok q.2) l es → es.map Prod.fst = l.map fun p => p.1.str :=
        fun hr => by
          induction hr with
          | nil => rfl
          | cons p q es vs h _ ih => simp [ih, h.1]
      rw [hk hr]; exact hd
    | number x =>
      rw [deserialize_eq] at h
      change (deserializeNumber P x).bind _ = _ at h
      unfold deserializeNumber at h
      repeat' split at h
      all_goals cases h
    | string x =>
      rw [deserialize_eq] at h
      change (Res.ok (deserializeString x)).bind _ = _ at h
      unfold deserializeString at h
      split at h <;> cases h
    | _ => rw [deserialize_eq] at h; cases h
  | key k => rw [deserialize_eq] at h; obtain ⟨o, k⟩ := k; cases o <;> cases h
  | block b =>
    rw [deserialize_eq] at h
    change (b.deserializeAny ord).bind _ = _ at h
    have hs : ∀ b, (Body.deserialize ord b).bind (visit I (deserialize P I ord) (.map t)) = .ok (.entries es) → (es.map Prod.fst).Nodup :=
      fun b h => hb b (by rw [deserialize_eq]; exact h)
    unfold BlockBody.deserializeAny at h
    split at h
    · exact hs _ h
    · cases h
    · split at h
      · split at h
        · exact hs _ h
        · cases h
      · cases h

theorem runPairs_res {K t : Ty} {s : Stop} {f : Failure} : ∀ {es : List (CowStr × Node)},
    runPairs (fun k => deserialize P I ord K (.key k)) (deserialize P I ord t) es s = f.res ↔
      PairsFail K (deserialize P I ord t) (named es) s f
  | [] => by
    constructor
    · intro h
      cases s <;> cases f <;> simp [runPairs, Failure.res] at h
      · subst h; exact .stop (.error _)
      · exact .stop .panic
    · intro h; cases h; cases f <;> rfl
  | (k, n) :: es => by
    simp only [runPairs, bind_res, map_res]
    have ih := runPairs_res (K := K) (t := t) (s := s) (f := f) (es := es)
    show _ ↔ PairsFail K (deserialize P I ord t) ((k.str, n) :: named es) s f
    constructor
    · rintro (h | ⟨kv, hk, h | ⟨v, hv, h⟩⟩)
      · by_cases hk : ∃ v, KeyReads k.str K v
        · obtain ⟨kv, hk⟩ := hk
          rw [(key_reads.1 kv).2 hk] at h; cases f <;> cases h
        · rw [key_reads.2 hk] at h
          cases f <;> cases h
          exact .key _ _ _ _ hk
      · exact .value _ _ _ _ _ ⟨kv, (key_reads.1 kv).1 hk⟩ h
      · exact .later _ _ _ _ _ ⟨kv, (key_reads.1 kv).1 hk⟩ ⟨v, hv⟩ (ih.1 h)
    · intro h
      cases h with
      | key _ _ _ _ hk => exact .inl (key_reads.2 hk)
      | value _ _ _ _ _ hk h =>
        obtain ⟨kv, hk⟩ := hk
        exact .inr ⟨kv, (key_reads.1 kv).2 hk, .inl h⟩
      | later _ _ _ _ _ hk hv h =>
        obtain ⟨kv, hk⟩ := hk
        obtain ⟨v, hv⟩ := hv
        exact .inr ⟨kv, (key_reads.1 kv).2 hk, .inr ⟨v, hv, ih.2 h⟩⟩

theorem runPairs_not_diverge {K t : Ty} {es : List (CowStr × Node)} {s : Stop} :
    runPairs (fun k => deserialize P I ord K (.key k)) (deserialize P I ord t) es s ≠ .diverge := by
  induction es with
  | nil => cases s <;> simp [runPairs]
  | cons p es ih =>
    obtain ⟨k, n⟩ := p
    simp only [runPairs]
    have h1 := c56_terminates P I ord K (.key k)
    have h2 := c56_terminates P I ord t n
    revert h1 h2 ih
    cases deserialize P I ord K (.key k) <;> cases deserialize P I ord t n <;>
      cases runPairs (fun k => deserialize P I ord K (.key k)) (deserialize P I ord t) es s <;> simp [Res.bind, Res.map]

variable (P I ord) (K t : Ty)

/-- C97: what a name can be as a key: a `String`, a `char` if it is one character, an enum if it is the name of a variant without
fields, a self-describing value, a byte buffer, or something that is thrown away. Every other key type (numbers, `bool`, `&str`,
`Option`, newtypes, …) is a type error, for every name. It never panics. -/
theorem c97_key (s : CowStr) :
    (∀ v, deserialize P I ord K (.key s) = .ok v ↔ KeyReads s.str K v) ∧
      ((¬ ∃ v, KeyReads s.str K v) → deserialize P I ord K (.key s) = .error .custom) := key_reads

/-- C97: a `HashMap<K, T>` is read exactly if a `HashMap<String, T>` is and all names can be read as keys; the entries are the same,
in the same order. -/
theorem c97_map (n : Node) (ps : List (DVal × DVal)) : deserializeMapOf P I ord K t n = .ok ps ↔
    ∃ es, deserialize P I ord (.map t) n = .ok (.entries es) ∧ KeysRead K es ps := by
  rcases mapOf_cases P I ord K t n with ⟨es, s, h1, h2⟩ | ⟨e, h1, h2⟩ | ⟨h1, h2⟩ | ⟨h1, h2⟩
  · rw [h1, h2, runPairs_ok]
    constructor
    · rintro ⟨vs, h, hk⟩; exact ⟨vs, map_ok.2 ⟨vs, h, rfl⟩, hk⟩
    · rintro ⟨vs, h, hk⟩
      obtain ⟨w, h, hw⟩ := map_ok.1 h
      cases hw; exact ⟨vs, h, hk⟩
  all_goals rw [h1, h2]; exact ⟨fun h => (by cases h), fun ⟨_, h, _⟩ => (by cases h)⟩

/-- C97: otherwise the outcome is the failure of the `HashMap<String, T>`, or the type error of a key. -/
theorem c97_failure (n : Node) :
    (∀ e, deserialize P I ord (.map t) n = .error e → deserializeMapOf P I ord K t n = .error e ∨
      ((∃ k : Str, ¬ ∃ v, KeyReads k K v) ∧ deserializeMapOf P I ord K t n = .error .custom)) ∧
    (deserialize P I ord (.map t) n = .panic → deserializeMapOf P I ord K t n = .panic ∨
      ((∃ k : Str, ¬ ∃ v, KeyReads k K v) ∧ deserializeMapOf P I ord K t n = .error .custom)) ∧
    (∀ es, deserialize P I ord (.map t) n = .ok (.entries es) → (∃ ps, deserializeMapOf P I ord K t n = .ok ps) ∨
      ((∃ p ∈ es, ¬ ∃ v, KeyReads p.1 K v) ∧ deserializeMapOf P I ord K t n = .error .custom)) := by
  rcases mapOf_cases P I ord K t n with ⟨es, s, h1, h2⟩ | ⟨e, h1, h2⟩ | ⟨h1, h2⟩ | ⟨h1, h2⟩
  · rw [h1, h2]
    obtain ⟨f1, f2, f3⟩ := runPairs_fail (P := P) (I := I) (ord := ord) (K := K) (t := t) (es := es) (s := s)
    cases hr : runEntries (fun _ => deserialize P I ord t) es s with
    | error e => exact ⟨fun e' h => by cases h; exact f1 e hr, fun h => (by cases h), fun _ h => (by cases h)⟩
    | panic => exact ⟨fun e' h => (by cases h), fun h => f2 hr, fun _ h => (by cases h)⟩
    | diverge => exact ⟨fun e' h => (by cases h), fun h => (by cases h), fun _ h => (by cases h)⟩
    | ok vs => exact ⟨fun e' h => (by cases h), fun h => (by cases h), fun es' h => by cases h; exact f3 vs hr⟩
  · rw [h1, h2]; exact ⟨fun e' h => by cases h; exact .inl rfl, fun h => (by cases h), fun _ h => (by cases h)⟩
  · rw [h1, h2]; exact ⟨fun e' h => (by cases h), fun _ => .inl rfl, fun _ h => (by cases h)⟩
  · rw [h1, h2]; exact ⟨fun e' h => (by cases h), fun h => (by cases h), fun _ h => (by cases h)⟩

/-- C97: a map whose keys can be no text (numbers, `bool`, `&str`, `Option`, newtypes, …) is read from empty maps only. -/
theorem c97_other_keys (hK : ∀ s v, ¬ KeyReads s K v) (n : Node) (ps : List (DVal × DVal)) :
    deserializeMapOf P I ord K t n = .ok ps ↔ ps = [] ∧ deserialize P I ord (.map t) n = .ok (.entries []) := by
  rw [c97_map]
  constructor
  · rintro ⟨es, h1, h2⟩
    cases es with
    | nil => exact ⟨List.length_eq_zero_iff.1 h2.1, h1⟩
    | cons e es =>
      cases ps with
      | nil => cases h2.1
      | cons p ps => exact absurd (KeysRead.cons_iff.1 h2).1.1 (hK _ _)
  · rintro ⟨rfl, h⟩; exact ⟨[], h, rfl, by simp⟩

/-- C97: these key types can be no text. -/
theorem c97_no_key_type (s : Str) (v : DVal) : ¬ KeyReads s .bool v ∧ (∀ T, ¬ KeyReads s (.int T) v) ∧ ¬ KeyReads s .f64 v ∧
    ¬ KeyReads s .f32 v ∧ ¬ KeyReads s .str v ∧ ¬ KeyReads s .unit v ∧ ¬ KeyReads s .unitStruct v ∧ (∀ t, ¬ KeyReads s (.option t) v) ∧
    (∀ t, ¬ KeyReads s (.newtype t) v) ∧ (∀ t, ¬ KeyReads s (.seq t) v) ∧ (∀ ts, ¬ KeyReads s (.tuple ts) v) ∧
    (∀ ts, ¬ KeyReads s (.tupleStruct ts) v) ∧ (∀ t, ¬ KeyReads s (.map t) v) ∧ ∀ fs, ¬ KeyReads s (.struct fs) v := by
  refine ⟨?_, ?_, ?_, ?_, ?_, ?_, ?_, ?_, ?_, ?_, ?_, ?_, ?_, ?_⟩ <;> intros <;> rintro ⟨⟩

/-- C97: with keys that every text can be, a map of any other kind of keys has the outcome of the one with string keys: the same
entries or the same failure. -/
theorem c97_same_outcome (hK : ∀ s, ∃ v, KeyReads s K v) (n : Node) :
    (∃ es ps, deserialize P I ord (.map t) n = .ok (.entries es) ∧ deserializeMapOf P I ord K t n = .ok ps ∧ KeysRead K es ps) ∨
      (∃ e, deserialize P I ord (.map t) n = .error e ∧ deserializeMapOf P I ord K t n = .error e) ∨
      (deserialize P I ord (.map t) n = .panic ∧ deserializeMapOf P I ord K t n = .panic) := by
  obtain ⟨f1, f2, f3⟩ := c97_failure P I ord K t n
  cases h : deserialize P I ord (.map t) n with
  | error e => rcases f1 e h with h' | ⟨⟨k, hk⟩, -⟩
               · exact .inr (.inl ⟨e, rfl, h'⟩)
               · exact absurd (hK k) hk
  | panic => rcases f2 h with h' | ⟨⟨k, hk⟩, -⟩
             · exact .inr (.inr ⟨rfl, h'⟩)
             · exact absurd (hK k) hk
  | diverge => exact absurd h (c56_terminates P I ord _ n)
  | ok v =>
    rcases mapOf_cases P I ord K t n with ⟨es, s, h1, -⟩ | ⟨e, h1, -⟩ | ⟨h1, -⟩ | ⟨h1, -⟩ <;> rw [h] at h1
    · obtain ⟨vs, -, rfl⟩ := map_ok.1 h1.symm
      rcases f3 vs h with ⟨ps, h'⟩ | ⟨⟨p, -, hk⟩, -⟩
      · obtain ⟨es', h2, h3⟩ := (c97_map P I ord K t n ps).1 h'
        rw [h] at h2; cases h2
        exact .inl ⟨vs, ps, rfl, h', h3⟩
      · exact absurd (hK _) hk
    all_goals cases h1

/-- C97: no key occurs twice among the pairs, so that nothing overwrites anything when they are inserted (unless the keys are thrown
away). -/
theorem c97_no_overwrite (hK : K ≠ .ignored) (n : Node) (ps : List (DVal × DVal)) (h : deserializeMapOf P I ord K t n = .ok ps) :
    (ps.map Prod.fst).Nodup := by
  obtain ⟨es, h1, h2⟩ := (c97_map P I ord K t n ps).1 h
  have hn := map_names_nodup h1
  clear h h1
  induction es generalizing ps with
  | nil => rw [List.length_eq_zero_iff.1 h2.1]; simp
  | cons e es ih =>
    cases ps with
    | nil => cases h2.1
    | cons p ps =>
      obtain ⟨⟨h3, -⟩, h4⟩ := KeysRead.cons_iff.1 h2
      rw [List.map_cons, List.nodup_cons] at hn ⊢
      refine ⟨fun hm => hn.1 ?_, ih ps h4 hn.2⟩
      obtain ⟨q, hq, hqe⟩ := List.mem_map.1 hm
      obtain ⟨i, hi, rfl⟩ := List.mem_iff_getElem.1 hq
      have hi' : i < es.length := h4.1 ▸ hi
      have hz : (es[i], ps[i]) ∈ es.zip ps := List.mem_iff_getElem.2 ⟨i, by rw [List.length_zip]; omega, List.getElem_zip⟩
      have h5 := (h4.2 _ hz).1
      rw [hqe] at h5
      rw [keyReads_inj hK h3 h5]
      exact List.mem_map.2 ⟨_, List.getElem_mem hi', rfl⟩

/-- C97: a key is read before its value: if the first name of an object cannot be a key, that is the error, whatever the value and
the other entries are. -/
theorem c97_key_first (k : CowStr) (e : Expr) (o : List (ObjKey × Expr)) (hk : ¬ ∃ v, KeyReads k.str K v) :
    deserializeMapOf P I ord K t (.expr (.object ((.ident k, e) :: o))) = .error .custom := by
  show pairLoop _ _ _ _ = _
  simp only [pairLoop, MapAcc.nextKey, ObjectMapAccess.new, ObjectMapAccess.nextKey, ObjKey.asStr]
  rw [key_reads.2 hk]
  rfl

/-- C97: which failure is reported, for an object: its entries are visited in source order up to a name that was there before or a key
that is an expression, each key before its value, and the first that cannot be read decides. -/
theorem c97_which_failure_object (o : List (ObjKey × Expr)) (es : List (Str × Node)) (s : Stop) (h : ObjectVisit o es s) (f : Failure) :
    deserializeMapOf P I ord K t (.expr (.object o)) = f.res ↔ PairsFail K (deserialize P I ord t) es s f := by
  obtain ⟨es', hD, rfl⟩ := object_visit_drains h
  show pairLoop _ _ _ _ = _ ↔ _
  rw [pairLoop_eq hD (Nat.lt_succ_self _), runPairs_res]

/-- C97: which failure is reported, for a body: attributes in source order, then the block types in some order. -/
theorem c97_which_failure_body (b : Body) : ∃ es s, BodyVisit BlockEntries b es s ∧
    ∀ f : Failure, deserializeMapOf P I ord K t (.body b) = f.res ↔ PairsFail K (deserialize P I ord t) es s f := by
  obtain ⟨es, s, hD, hv⟩ := body_visit ord b
  refine ⟨named es, s, ?_, fun f => ?_⟩
  · generalize named es = ns at hv ⊢
    cases hv with
    | all bs h1 h2 h3 => exact .all b bs h1 (orderOf_entries h2) h3
    | again l rest k e h1 h2 h3 => exact .again b l rest k e h1 h2 h3
    | clash bs rest k n h1 h2 h3 h4 => exact .clash b bs rest k n h1 (orderOf_entries h2) h3 h4
  · show pairLoop _ _ _ _ = _ ↔ _
    rw [pairLoop_eq hD (Nat.lt_succ_self _), runPairs_res]

/-- C97: reading a map ends. -/
theorem c97_terminates (n : Node) : deserializeMapOf P I ord K t n ≠ .diverge := by
  rcases mapOf_cases P I ord K t n with ⟨es, s, -, h2⟩ | ⟨e, -, h2⟩ | ⟨-, h2⟩ | ⟨h1, -⟩
  · rw [h2]; exact runPairs_not_diverge
  · rw [h2]; exact nofun
  · rw [h2]; exact nofun
  · exact absurd h1 (c56_terminates P I ord _ n)

/-- C97: from a text: the same, and a text that is not a document is the parser's error. -/
theorem c97_from_str (U : CharClass) (s : Str) :
    (∀ ps, deFromStrMapOf U P I ord K t s = .ok ps ↔
      ∃ es, deFromStr U P I ord (.map t) s = .ok (.entries es) ∧ KeysRead K es ps) ∧
    (∀ e, parseStr U s = .error e → deFromStrMapOf U P I ord K t s = .error (.parse e)) ∧
      deFromStrMapOf U P I ord K t s ≠ .diverge := by
  unfold deFromStrMapOf deFromStr
  cases h : parseStr U s with
  | ok b => exact ⟨fun ps => c97_map P I ord K t _ ps, fun e he => (by cases he), c97_terminates P I ord K t _⟩
  | error e =>
    exact ⟨fun ps => ⟨fun h => (by cases h), fun ⟨_, h, _⟩ => (by cases h)⟩, fun e he => (by cases he; rfl), nofun⟩
  | panic => exact ⟨fun ps => ⟨fun h => (by cases h), fun ⟨_, h, _⟩ => (by cases h)⟩, fun e he => (by cases he), nofun⟩
  | diverge => exact absurd h (parseStr_not_diverge s)

end

end Verif.Props
