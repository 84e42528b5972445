import Verif.Proofs.DeStruct
import Verif.Proofs.DeOrder
import Verif.Props.Document
/-! # Deserialization into types: C47–C51 end to end, C56–C60 -/
set_option autoImplicit false

namespace Verif.Props
open Verif Spec

section
variable (P : F64Parse) (I : F64OfInt) (ord : HashOrder)

/-! ## C56 -/

/-- C56: deserialization of any node into any type ends, with a value, an error or a panic. -/
theorem c56_terminates (t : Ty) (n : Node) : deserialize P I ord t n ≠ .diverge := deserialize_total P I ord t n

/-- C56: it is what the type's visitor does with the call that the node makes (the equation of the recursion, without
fuel). -/
theorem c56_equation (t : Ty) (n : Node) :
    deserialize P I ord t n = (n.deserialize P ord t.hint).bind (visit I (deserialize P I ord) t) :=
  deserialize_eq P I ord t n

/-- C56: `from_str` ends for every text. -/
theorem c56_from_str (U : CharClass) (t : Ty) (s : Str) : deFromStr U P I ord t s ≠ .diverge := by
  intro h
  unfold deFromStr at h
  split at h
  · exact deserialize_total P I ord t _ h
  · cases h
  · cases h
  · rename_i hp
    exact c03_parse_str_terminates U s hp

/-! ## C57 -/

/-- C57: a body without expression keys, labels and name clashes (at any depth) never panics, whatever the type. -/
theorem c57_plain_never_panics (t : Ty) (b : Body) (h : PlainBody b) : deserialize P I ord t (.body b) ≠ .panic :=
  plain_not_panic t (n := .body b) h

/-- C57: nor does such an expression. -/
theorem c57_plain_expression_never_panics (t : Ty) (e : Expr) (h : PlainExpr e) :
    deserialize P I ord t (.expr e) ≠ .panic :=
  plain_not_panic t (n := .expr e) h

/-- C57: `from_str` panics only if parsing does or the parsed body is not plain. -/
theorem c57_from_str (U : CharClass) (t : Ty) (s : Str) (h : deFromStr U P I ord t s = .panic) :
    parseStr U s = .panic ∨ ∃ b, parseStr U s = .ok b ∧ ¬ PlainBody b := by
  unfold deFromStr at h
  split at h
  · rename_i b hb
    exact .inr ⟨b, hb, fun hp => plain_not_panic t (n := .body b) hp h⟩
  · cases h
  · rename_i hb; exact .inl hb
  · cases h

/-! ## C47: integers -/

/-- C47: an integer literal into an integer type: exactly its value, if it fits the type and `i64`; otherwise an
error. -/
theorem c47_into_integer (T : IntTy) (t : Str) (n : Number) (h : IsNumber t n) (v : DVal) :
    deserialize P I ord (.int T) (.expr (.number n)) = .ok v ↔
      ∃ k, IntLit t k ∧ (-(2 ^ 63) ≤ k ∧ k < 2 ^ 63) ∧ (T.min ≤ k ∧ k ≤ T.max) ∧ v = .int k := by
  rw [deserialize_eq]
  have hnum : (Node.expr (.number n)).deserialize P ord (Ty.int T).hint = (Expr.number n).deserialize P .forward := rfl
  rw [hnum]
  by_cases hf : n.isFloat = true
  · have hno : ∀ k, ¬ IntLit t k := fun k => float_not_intLit h hf
    have : (Expr.number n).deserialize P .forward = deserializeNumber P n := rfl
    rw [this, deserializeNumber, if_pos hf]
    constructor
    · intro hv
      cases hp : P n.input.str with
      | none => simp [hp, Res.bind] at hv
      | some x => simp [hp, Res.bind, visit] at hv
    · rintro ⟨k, hk, -⟩; exact absurd hk (hno k)
  · have hf' : n.isFloat = false := by simpa using hf
    obtain ⟨k, hk⟩ := c11_integer_literal t n h hf'
    obtain ⟨h1, h2⟩ := c47_integer_visit P t n h k hk .forward (by simp) (by simp)
    by_cases hr : -(2 ^ 63) ≤ k ∧ k < 2 ^ 63
    · rw [h1 hr]
      simp only [Res.bind, visit]
      constructor
      · intro hv
        split at hv
        · rename_i hT
          injection hv with hv
          exact ⟨k, hk, hr, (inRange_iff).1 hT, hv.symm⟩
        · cases hv
      · rintro ⟨k', hk', -, hT, rfl⟩
        rw [← intLit_functional hk hk'] at hT ⊢
        rw [if_pos ((inRange_iff).2 hT)]
    · rw [h2 hr]
      constructor
      · intro hv; cases hv
      · rintro ⟨k', hk', hr', -⟩
        rw [← intLit_functional hk hk'] at hr'
        exact absurd hr' hr

/-- C47: nothing but a number deserializes into an integer type, whatever the node. -/
theorem c47_only_numbers (T : IntTy) (e : Expr) (v : DVal) (h : deserialize P I ord (.int T) (.expr e) = .ok v) :
    ∃ n, e = .number n := by
  rw [deserialize_eq] at h
  cases e with
  | number n => exact ⟨n, rfl⟩
  | string s =>
    obtain ⟨c, h1, h2⟩ := bind_ok.1 h
    simp only [Node.deserialize, Ty.hint, Expr.deserialize, Expr.deserializeAny, deserializeString, Res.ok.injEq] at h1
    subst h1
    split at h2 <;> cases h2
  | _ => cases h

/-! ## C48: options -/

/-- C48: `Option<T>` of an expression: `None` iff `null`; `Some` of what `T` gives otherwise. -/
theorem c48_into_option (t : Ty) (e : Expr) (v : DVal) :
    deserialize P I ord (.option t) (.expr e) = .ok v ↔
      (e = .null ∧ v = .none) ∨ (e ≠ .null ∧ ∃ w, deserialize P I ord t (.expr e) = .ok w ∧ v = .some w) := by
  rw [deserialize_eq]
  by_cases he : e = .null
  · subst he
    show (Res.ok DVal.none = _) ↔ _
    simp [eq_comm]
  · have := (c48_option P e).2 he
    show ((e.deserialize P .option).bind _ = _) ↔ _
    rw [this]
    simp only [Res.bind, visit, map_ok, he, false_and, false_or, ne_eq, not_false_eq_true, true_and]
    constructor
    · rintro ⟨w, h1, rfl⟩; exact ⟨w, h1, rfl⟩
    · rintro ⟨w, h1, rfl⟩; exact ⟨w, h1, rfl⟩

/-- C48: but a body is never an `Option` (so neither is a document, nor an element of a `Vec` of blocks). -/
theorem c48_body_not_option (t : Ty) (b : Body) : deserialize P I ord (.option t) (.body b) = .error .custom := by
  rw [deserialize_eq]; rfl

/-! ## C49: sequences -/

/-- C49: a tuple expression into a tuple type: the lengths must agree; the elements in order. -/
theorem c49_into_tuple (ts : List Ty) (es : List Expr) (v : DVal) :
    deserialize P I ord (.tuple ts) (.expr (.tuple es)) = .ok v ↔
      es.length = ts.length ∧ ∃ vs, v = .seq vs ∧
        AllRel (fun p w => deserialize P I ord p.1 (.expr p.2) = .ok w) (ts.zip es) vs := by
  rw [deserialize_eq]
  show (((Expr.tuple es).deserialize P (.tuple ts.length)).bind _ = _) ↔ _
  rw [(c49_tuple P es ts.length).1]
  by_cases hl : es.length = ts.length
  · rw [if_pos hl]
    simp only [Res.bind, visit, map_ok, hl, true_and]
    have hz : ts.zip (es.map Node.expr) = (ts.zip es).map fun p => (p.1, Node.expr p.2) := by
      rw [List.zip_map_right]; rfl
    have hrel : ∀ vs, deFields (deserialize P I ord) ts (es.map Node.expr) = .ok vs ↔
        AllRel (fun p w => deserialize P I ord p.1 (.expr p.2) = .ok w) (ts.zip es) vs := by
      intro vs
      rw [deFields_ok, hz]
      simp only [List.length_map, hl, Nat.le_refl, true_and]
      generalize ts.zip es = l
      induction l generalizing vs with
      | nil => constructor <;> (intro h; cases h; exact .nil)
      | cons p l ih =>
        constructor
        · intro h
          cases h with
          | cons _ w _ ws h1 h2 => exact .cons _ _ _ _ h1 ((ih ws).1 h2)
        · intro h
          cases h with
          | cons _ w _ ws h1 h2 => exact .cons _ _ _ _ h1 ((ih ws).2 h2)
    constructor
    · rintro ⟨vs, h, rfl⟩; exact ⟨vs, rfl, (hrel vs).1 h⟩
    · rintro ⟨vs, rfl, h⟩; exact ⟨vs, (hrel vs).2 h, rfl⟩
  · rw [if_neg hl]
    constructor
    · intro h; cases h
    · rintro ⟨h, -⟩; exact absurd h hl

/-- C49: a tuple expression into `Vec<T>`: all elements in order, each as `T`; any failure is a failure. -/
theorem c49_into_vec (t : Ty) (es : List Expr) (v : DVal) :
    deserialize P I ord (.seq t) (.expr (.tuple es)) = .ok v ↔
      ∃ vs, v = .seq vs ∧ AllRel (fun e w => deserialize P I ord t (.expr e) = .ok w) es vs := by
  rw [deserialize_eq]
  show ((deAll (deserialize P I ord t) (es.map Node.expr)).map DVal.seq = _) ↔ _
  have hrel : ∀ (es : List Expr) vs, deAll (deserialize P I ord t) (es.map Node.expr) = .ok vs ↔
      AllRel (fun e w => deserialize P I ord t (.expr e) = .ok w) es vs := by
    intro es
    induction es with
    | nil =>
      intro vs
      constructor
      · intro h; cases h; exact .nil
      · intro h; cases h; rfl
    | cons e es ih =>
      intro vs
      simp only [List.map_cons, deAll, bind_ok, map_ok]
      constructor
      · rintro ⟨w, h1, ws, h2, rfl⟩; exact .cons _ _ _ _ h1 ((ih ws).1 h2)
      · intro h
        cases h with
        | cons _ w _ ws h1 h2 => exact ⟨w, h1, ws, (ih ws).2 h2, rfl⟩
  rw [map_ok]
  constructor
  · rintro ⟨vs, h, rfl⟩; exact ⟨vs, rfl, (hrel es vs).1 h⟩
  · rintro ⟨vs, rfl, h⟩; exact ⟨vs, (hrel es vs).2 h, rfl⟩

/-- C49: but a struct may be given by position, and then surplus elements are silently dropped. -/
theorem c49_struct_by_position (fs : List (Str × Ty)) (es : List Expr) (v : DVal) :
    deserialize P I ord (.struct fs) (.expr (.tuple es)) = .ok v ↔
      fs.length ≤ es.length ∧ ∃ vs, v = .entries ((fs.map Prod.fst).zip vs) ∧
        AllRel (fun p w => deserialize P I ord p.1 p.2 = .ok w) ((fs.map Prod.snd).zip (es.map .expr)) vs := by
  rw [deserialize_eq]
  show ((deFields (deserialize P I ord) (fs.map Prod.snd) (es.map Node.expr)).map _ = _) ↔ _
  simp only [map_ok, deFields_ok, List.length_map]
  constructor
  · rintro ⟨vs, ⟨h1, h2⟩, rfl⟩; exact ⟨h1, vs, rfl, h2⟩
  · rintro ⟨h1, vs, rfl, h2⟩; exact ⟨vs, ⟨h1, h2⟩, rfl⟩

/-! ## C50: blocks -/

/-- C50: `Vec<T>` of the blocks of a type: the bodies in source order, each as `T`. -/
theorem c50_into_vec (t : Ty) (bs : List Body) (v : DVal) :
    deserialize P I ord (.seq t) (.block (.body bs)) = .ok v ↔
      ∃ vs, v = .seq vs ∧ AllRel (fun b w => deserialize P I ord t (.body b) = .ok w) bs vs := by
  rw [deserialize_eq]
  show ((deAll (deserialize P I ord t) (bs.map Node.body)).map DVal.seq = _) ↔ _
  have hrel : ∀ (bs : List Body) vs, deAll (deserialize P I ord t) (bs.map Node.body) = .ok vs ↔
      AllRel (fun b w => deserialize P I ord t (.body b) = .ok w) bs vs := by
    intro bs
    induction bs with
    | nil =>
      intro vs
      constructor
      · intro h; cases h; exact .nil
      · intro h; cases h; rfl
    | cons b bs ih =>
      intro vs
      simp only [List.map_cons, deAll, bind_ok, map_ok]
      constructor
      · rintro ⟨w, h1, ws, h2, rfl⟩; exact .cons _ _ _ _ h1 ((ih ws).1 h2)
      · intro h
        cases h with
        | cons _ w _ ws h1 h2 => exact ⟨w, h1, ws, (ih ws).2 h2, rfl⟩
  rw [map_ok]
  constructor
  · rintro ⟨vs, h, rfl⟩; exact ⟨vs, rfl, (hrel bs vs).1 h⟩
  · rintro ⟨vs, rfl, h⟩; exact ⟨vs, (hrel bs vs).2 h, rfl⟩

/-- C50: a single block into a struct or a map is its body into that struct or map. -/
theorem c50_single_into_struct_or_map (b : Body) (t : Ty) (ht : (∃ fs, t = .struct fs) ∨ ∃ t', t = .map t') :
    deserialize P I ord t (.block (.body [b])) = deserialize P I ord t (.body b) := by
  rcases ht with ⟨fs, rfl⟩ | ⟨t', rfl⟩ <;> rw [deserialize_eq, deserialize_eq] <;> rfl

/-- C50: an optional block that is present is `Some`. -/
theorem c50_into_option (t : Ty) (b : Body) (bs : List Body) :
    deserialize P I ord (.option t) (.block (.body (b :: bs))) =
      (deserialize P I ord t (.block (.body (b :: bs)))).map .some := by
  rw [deserialize_eq]; rfl

/-- C50: a map cannot be made from several blocks of a type, and labelled blocks panic for every type but `Option`. -/
theorem c50_failures (t : Ty) (b b' : Body) (bs : List Body) (e : List Body) (m : List (BlockLabel × BlockBody))
    (hm : m ≠ []) (ht : ∀ t', t ≠ .option t') :
    deserialize P I ord (.map t) (.block (.body (b :: b' :: bs))) = .error .custom ∧
    deserialize P I ord t (.block (.labels e m)) = .panic := by
  constructor
  · rw [deserialize_eq]; rfl
  · rw [deserialize_eq]
    have : ∀ h, h ≠ .option → (BlockBody.labels e m).deserialize ord h = .panic := by
      intro h hh
      cases m with
      | nil => exact absurd rfl hm
      | cons p m => cases h <;> first | rfl | exact absurd rfl hh
    have hh : t.hint ≠ .option := by
      cases t with
      | option t' => exact absurd rfl (ht t')
      | _ => simp [Ty.hint]
    show (((BlockBody.labels e m).deserialize ord t.hint).bind _ = _)
    rw [this _ hh]; rfl

/-! ## C51: strings -/

/-- C51: `&str` is given exactly by string expressions with borrowed text (in a parsed document: verbatim parts of it,
`c51_borrowed_is_verbatim`), `String` by all string expressions, with the same text. -/
theorem c51_into_str (e : Expr) (v : DVal) :
    (deserialize P I ord .str (.expr e) = .ok v ↔ ∃ s, e = .string (.borrowed s) ∧ v = .string s) ∧
    (deserialize P I ord .string (.expr e) = .ok v ↔ ∃ s, e = .string s ∧ v = .string s.str) := by
  have hnum : ∀ n : Number, ∀ c, deserializeNumber P n = .ok c → (∃ x, c = .f64 x) ∨ (∃ x, c = .i64 x) ∨ ∃ x, c = .u64 x := by
    intro n c h
    unfold deserializeNumber at h
    repeat' split at h
    all_goals first
      | cases h; done
      | (cases h; simp)
  rw [deserialize_eq, deserialize_eq]
  cases e with
  | string s =>
    obtain ⟨o, s⟩ := s
    cases o
    · constructor
      · show (Res.ok (DVal.string s) = _) ↔ _
        constructor
        · intro h; cases h; exact ⟨s, rfl, rfl⟩
        · rintro ⟨s', h, rfl⟩; cases h; rfl
      · show (Res.ok (DVal.string s) = _) ↔ _
        constructor
        · intro h; cases h; exact ⟨_, rfl, rfl⟩
        · rintro ⟨s', h, rfl⟩; cases h; rfl
    · constructor
      · constructor
        · intro h; cases h
        · rintro ⟨s', h, rfl⟩; cases h
      · show (Res.ok (DVal.string s) = _) ↔ _
        constructor
        · intro h; cases h; exact ⟨_, rfl, rfl⟩
        · rintro ⟨s', h, rfl⟩; cases h; rfl
  | number n =>
    constructor
    · constructor
      · intro h
        obtain ⟨c, h1, h2⟩ := bind_ok.1 h
        rcases hnum n c h1 with ⟨x, rfl⟩ | ⟨x, rfl⟩ | ⟨x, rfl⟩ <;> cases h2
      · rintro ⟨s', h, rfl⟩; cases h
    · constructor
      · intro h
        obtain ⟨c, h1, h2⟩ := bind_ok.1 h
        rcases hnum n c h1 with ⟨x, rfl⟩ | ⟨x, rfl⟩ | ⟨x, rfl⟩ <;> cases h2
      · rintro ⟨s', h, rfl⟩; cases h
  | _ =>
    constructor
    · constructor
      · intro h; cases h
      · rintro ⟨s', h, rfl⟩; cases h
    · constructor
      · intro h; cases h
      · rintro ⟨s', h, rfl⟩; cases h

private theorem nodup_map_unique {α β : Type} {f : α → β} {l : List α} (h : (l.map f).Nodup) :
    ∀ p ∈ l, ∀ p' ∈ l, f p = f p' → p = p' := by
  induction l with
  | nil => intro p hp; cases hp
  | cons a l ih =>
    rw [List.map_cons, List.nodup_cons] at h
    intro p hp p' hp' hf
    cases hp with
    | head =>
      cases hp' with
      | head => rfl
      | tail _ hp' => exact absurd (List.mem_map.2 ⟨p', hp', hf.symm⟩) h.1
    | tail _ hp =>
      cases hp' with
      | head => exact absurd (List.mem_map.2 ⟨p, hp, hf⟩) h.1
      | tail _ hp' => exact ih h.2 p hp p' hp' hf

/-! ## C58: structs -/

/-- C58: a body into a derived struct. It succeeds iff attribute names are distinct, no block has the name of an
attribute, every declared field that the body has gets exactly the value of that name, every other declared field is an
`Option` (and becomes `None`), and what is not declared can be skipped. -/
theorem c58_struct (fs : List (Str × Ty)) (hfs : (fs.map Prod.fst).Nodup) (b : Body) (v : DVal) :
    deserialize P I ord (.struct fs) (.body b) = .ok v ↔
      Distinct (attrs b) ∧ ¬ NameClash b ∧
      (∃ vs, v = .entries vs ∧ AllRel (fun f q => q.1 = f.1 ∧
        ((∃ n, EntryOf b f.1 n ∧ deserialize P I ord f.2 n = .ok q.2) ∨
         ((∀ n, ¬ EntryOf b f.1 n) ∧ (∃ t, f.2 = .option t) ∧ q.2 = .none))) fs vs) ∧
      ∀ k n, EntryOf b k n → k ∉ fs.map Prod.fst → ∃ w, deserialize P I ord .ignored n = .ok w := by
  rw [body_struct_ok]
  constructor
  · rintro ⟨es, found, vs, rfl, hD, h1, h2⟩
    obtain ⟨hn, hd, hc, he⟩ := drained_entry hD
    have hkeys := allRel_keys h1 fun p q h => h.1
    refine ⟨hd, hc, ⟨vs, rfl, (structFields_ok.1 h2).imp fun f q hf _ ⟨hq1, hq2⟩ => ⟨hq1, ?_⟩⟩, fun k n hk hkn => ?_⟩
    · rcases hq2 with hq2 | ⟨hq2, ht, hv⟩
      · have hm := field?_mem hq2
        obtain ⟨p, hp, h3, h4⟩ := h1.right hm
        dsimp only at h3 h4
        have : field? p.1.str fs = some f.2 := by rw [← h3]; exact field?_of_mem hf hfs
        rw [this] at h4
        exact .inl ⟨p.2, (he _ _).1 ⟨p, hp, h3.symm, rfl⟩, h4⟩
      · refine .inr ⟨fun n hn => ?_, ht, hv⟩
        obtain ⟨p, hp, h3, -⟩ := (he _ _).2 hn
        have := field?_none.1 hq2
        rw [hkeys] at this
        exact this (List.mem_map.2 ⟨p, hp, h3⟩)
    · obtain ⟨p, hp, rfl, rfl⟩ := (he _ _).2 hk
      obtain ⟨q, -, -, h4⟩ := h1.left hp
      rw [field?_none.2 hkn] at h4
      exact ⟨q.2, h4⟩
  · rintro ⟨hd, hc, ⟨vs, rfl, h1⟩, h2⟩
    obtain ⟨es, hD⟩ := drained_exists ord hd hc
    obtain ⟨hn, -, -, he⟩ := drained_entry hD
    have huniq := nodup_map_unique (f := fun p : CowStr × Node => p.1.str) hn
    obtain ⟨found, hfound⟩ := AllRel.exists_of (as := es)
      (R := fun (p : CowStr × Node) (q : Str × DVal) => q.1 = p.1.str ∧ deserialize P I ord ((field? p.1.str fs).getD .ignored) p.2 = .ok q.2) (by
        intro p hp
        have hE := (he p.1.str p.2).1 ⟨p, hp, rfl, rfl⟩
        cases hf : field? p.1.str fs with
        | none =>
          obtain ⟨w, hw⟩ := h2 _ _ hE (field?_none.1 hf)
          exact ⟨(p.1.str, w), rfl, hw⟩
        | some t =>
          obtain ⟨q, -, -, h3⟩ := h1.left (field?_mem hf)
          rcases h3 with ⟨n, hn', hq⟩ | ⟨hno, -⟩
          · obtain ⟨p', hp', h4, rfl⟩ := (he _ _).2 hn'
            have := huniq p hp p' hp' h4.symm
            subst this
            exact ⟨(p.1.str, q.2), rfl, hq⟩
          · exact absurd hE (hno _))
    have hkeys := allRel_keys hfound fun p q h => h.1
    have hfn : (found.map Prod.fst).Nodup := by rw [hkeys]; exact hn
    refine ⟨es, found, vs, rfl, hD, hfound, structFields_ok.2 (h1.imp fun f q hf _ ⟨hq1, hq2⟩ => ⟨hq1, ?_⟩)⟩
    rcases hq2 with ⟨n, hE, hq⟩ | ⟨hno, ht, hv⟩
    · obtain ⟨p, hp, h4, rfl⟩ := (he _ _).2 hE
      obtain ⟨r, hr, h5, h6⟩ := hfound.left hp
      rw [h4, field?_of_mem hf hfs] at h6
      have : r.2 = q.2 := by
        have h7 := h6.symm.trans hq
        injection h7
      left
      rw [← this, ← h4, ← h5]
      exact field?_of_mem hr hfn
    · right
      refine ⟨field?_none.2 fun hm => ?_, ht, hv⟩
      rw [hkeys] at hm
      obtain ⟨p, hp, h4⟩ := List.mem_map.1 hm
      exact hno p.2 ((he _ _).1 ⟨p, hp, h4, rfl⟩)

/-! ## C59: maps -/

/-- C59: a body into `HashMap<String, T>`: the map has exactly the names of the body, each once, with its value. -/
theorem c59_map (t : Ty) (b : Body) (v : DVal) (h : deserialize P I ord (.map t) (.body b) = .ok v) :
    ∃ vs, v = .entries vs ∧ (vs.map Prod.fst).Nodup ∧
      ∀ k w, (k, w) ∈ vs ↔ ∃ n, EntryOf b k n ∧ deserialize P I ord t n = .ok w := by
  obtain ⟨es, vs, rfl, hD, h1⟩ := body_map_ok.1 h
  obtain ⟨hn, -, -, he⟩ := drained_entry hD
  have hkeys := allRel_keys h1 fun p q h => h.1
  have hfn : (vs.map Prod.fst).Nodup := by rw [hkeys]; exact hn
  refine ⟨vs, rfl, hfn, fun k w => ⟨fun hk => ?_, fun ⟨n, hE, hw⟩ => ?_⟩⟩
  · obtain ⟨p, hp, h3, h4⟩ := h1.right hk
    exact ⟨p.2, (he _ _).1 ⟨p, hp, h3.symm, rfl⟩, h4⟩
  · obtain ⟨p, hp, h3, rfl⟩ := (he _ _).2 hE
    obtain ⟨q, hq, h4, h5⟩ := h1.left hp
    have : q = (k, w) := by
      obtain ⟨q1, q2⟩ := q
      dsimp only at h4 h5
      rw [hw] at h5; injection h5 with h5
      rw [h4, h3, h5]
    rw [← this]; exact hq

/-- C59: it succeeds exactly if attribute names are distinct, no block has the name of an attribute, and every value is
a `T`. -/
theorem c59_map_succeeds_iff (t : Ty) (b : Body) :
    (∃ v, deserialize P I ord (.map t) (.body b) = .ok v) ↔
      Distinct (attrs b) ∧ ¬ NameClash b ∧ ∀ k n, EntryOf b k n → ∃ w, deserialize P I ord t n = .ok w := by
  constructor
  · rintro ⟨v, h⟩
    obtain ⟨es, vs, rfl, hD, h1⟩ := body_map_ok.1 h
    obtain ⟨-, hd, hc, he⟩ := drained_entry hD
    refine ⟨hd, hc, fun k n hE => ?_⟩
    obtain ⟨p, hp, h3, rfl⟩ := (he _ _).2 hE
    obtain ⟨q, -, -, h5⟩ := h1.left hp
    exact ⟨q.2, h5⟩
  · rintro ⟨hd, hc, h1⟩
    obtain ⟨es, hD⟩ := drained_exists ord hd hc
    obtain ⟨-, -, -, he⟩ := drained_entry hD
    obtain ⟨vs, hvs⟩ := AllRel.exists_of (as := es)
      (R := fun (p : CowStr × Node) (q : Str × DVal) => q.1 = p.1.str ∧ deserialize P I ord t p.2 = .ok q.2) (by
        intro p hp
        obtain ⟨w, hw⟩ := h1 _ _ ((he p.1.str p.2).1 ⟨p, hp, rfl, rfl⟩)
        exact ⟨(p.1.str, w), rfl, hw⟩)
    exact ⟨_, body_map_ok.2 ⟨es, vs, rfl, hD, hvs⟩⟩

/-! ## C60: hash order -/

/-- C60: whether deserialization succeeds, and with what value up to the order of map entries, does not depend on the order
in which hash maps are iterated. -/
theorem c60_hash_order_irrelevant (ord' : HashOrder) (t : Ty) (n : Node) (v : DVal) (h : deserialize P I ord t n = .ok v) :
    ∃ v', deserialize P I ord' t n = .ok v' ∧ SameVal v v' :=
  deserialize_carries P I ord ord' _ t n (Nat.lt_succ_self _) v h

/-- C60: the same for `from_str`. -/
theorem c60_from_str (U : CharClass) (ord' : HashOrder) (t : Ty) (s : Str) (v : DVal) (h : deFromStr U P I ord t s = .ok v) :
    ∃ v', deFromStr U P I ord' t s = .ok v' ∧ SameVal v v' := by
  unfold deFromStr at h ⊢
  cases hp : parseStr U s with
  | ok b => rw [hp] at h; exact c60_hash_order_irrelevant P I ord ord' t (.body b) v h
  | error e => rw [hp] at h; cases h
  | panic => rw [hp] at h; cases h
  | diverge => rw [hp] at h; cases h

end

/-! ## samples -/

/-- `struct { a: String, b: Option<bool>, c: Vec<struct { v: String }> }` -/
abbrev sampleTy : Ty :=
  .struct [("a".toList, .string), ("b".toList, .option .bool), ("c".toList, .seq (.struct [("v".toList, .string)]))]

/-- an attribute, an attribute not declared, two blocks; the optional attribute is missing -/
abbrev sampleBody : Body := [att "a" "x", bel "c" "1", att "z" "y", bel "c" "2"]

theorem sample_result (P : F64Parse) (I : F64OfInt) :
    deserialize P I ord0 sampleTy (.body sampleBody) = .ok (.entries [("a".toList, .string "x".toList), ("b".toList, .none),
      ("c".toList, .seq [.entries [("v".toList, .string "1".toList)], .entries [("v".toList, .string "2".toList)]])]) := by
  rw [deserialize, deN_fuel P I ord0 _ sampleTy (.body sampleBody) _ 100000 (Nat.lt_succ_self _) (Nat.lt_succ_self _)]
  · rfl
  · decide +kernel

/-- C60: the order of the entries does depend on it. -/
theorem c60_order_of_entries_differs (P : F64Parse) (I : F64OfInt) :
    deserialize P I ord0 (.map .ignored) (.body [bel "c" "1", bel "d" "2"]) =
      .ok (.entries [("c".toList, .ignored), ("d".toList, .ignored)]) ∧
    deserialize P I ord1 (.map .ignored) (.body [bel "c" "1", bel "d" "2"]) =
      .ok (.entries [("d".toList, .ignored), ("c".toList, .ignored)]) := by
  constructor
  · rw [deserialize, deN_fuel P I ord0 _ _ _ _ 100000 (Nat.lt_succ_self _) (Nat.lt_succ_self _)]
    · rfl
    · decide +kernel
  · rw [deserialize, deN_fuel P I ord1 _ _ _ _ 100000 (Nat.lt_succ_self _) (Nat.lt_succ_self _)]
    · rfl
    · decide +kernel

/-- C57 applies to it -/
example : PlainBody sampleBody := by
  have hb : ∀ v, PlainBody [att "v" v] := fun v =>
    .mk _ (by simp [attrs]; exact .string _) (by simp [blocks]) (by simp [blocks]) (by
      rintro ⟨p, hp, q, hq, -⟩; simp [blocks] at hq)
  refine .mk _ ?_ (by simp [blocks]) ?_ ?_
  · intro p hp
    simp only [attrs, List.filterMap_cons, List.filterMap_nil, List.mem_cons, List.not_mem_nil, or_false] at hp
    rcases hp with rfl | rfl <;> exact .string _
  · intro q hq
    simp only [blocks, List.filterMap_cons, List.filterMap_nil, List.mem_cons, List.not_mem_nil, or_false] at hq
    rcases hq with rfl | rfl <;> exact hb _
  · rintro ⟨p, hp, q, hq, h⟩
    simp only [attrs, blocks, List.filterMap_cons, List.filterMap_nil, List.mem_cons, List.not_mem_nil, or_false] at hp hq
    rcases hp with rfl | rfl <;> rcases hq with rfl | rfl <;> revert h <;> decide

end Verif.Props
