import Verif.Proofs.De
import Verif.Props.Literals
import Verif.Props.Blocks
/-! # Deserialization, the protocol: C44–C52 -/
set_option autoImplicit false

namespace Verif.Props
open Verif Spec

/-! ## samples -/

/-- an identifier -/
abbrev idt (s : String) : CowStr := .borrowed s.toList
/-- an attribute `k = "v"` -/
abbrev att (k v : String) : BodyElement := .attribute (idt k) (.string (idt v))
/-- a block without labels with one attribute -/
abbrev bel (t v : String) : BodyElement := .block (idt t) [] [att "v" v]
/-- hash order as inserted -/
def ord0 : HashOrder := ⟨fun m => m, fun _ => .refl _⟩
/-- reversed -/
def ord1 : HashOrder := ⟨List.reverse, List.reverse_perm⟩

/-- what can be drained from a body is determined -/
theorem drains_unique {a : MapAcc} {es es' : List (CowStr × Node)} {s s' : Stop} (h : Drains a es s)
    (h' : Drains a es' s') : es = es' ∧ s = s' := drains_functional h h'

theorem ordered_nodup (ord : HashOrder) (b : Body) :
    ((ord.order (Blocks.new (blocks b))).map fun p => p.1.str).Nodup :=
  ((ord.perm _).map _).nodup_iff.2 (new_nodup _)

/-! ## C44 -/

/-- C44: if the attribute names are distinct and no block has the name of an attribute, then reading the body yields
all attributes in source order, then every block type once (in some order), without error. The blocks of a type are
the blocks of its last run of consecutive blocks. -/
theorem c44_attributes_then_block_types (ord : HashOrder) (b : Body) (hd : Distinct (attrs b)) (hc : ¬ NameClash b) :
    ∃ bs : List (CowStr × BlockBody),
      Drains (.body (.new ord b))
        ((attrs b).map (fun p => (p.1, .expr p.2)) ++ bs.map fun p => (p.1, .block p.2)) .done ∧
      Distinct bs ∧ (∀ t, t ∈ bs.map (fun p => p.1.str) ↔ ∃ q ∈ blocks b, q.type.str = t) ∧
      ∀ p ∈ bs, ∃ run, LastRun p.1.str (blocks b) run ∧
        p.2 = BlockBody.fromIter (run.map fun q => (q.labels, q.body)) := by
  refine ⟨ord.order (Blocks.new (blocks b)), ?_, ordered_nodup ord b, fun t => ?_, fun p hp => ?_⟩
  · have hn : ((mapAccessIter ord b).map fun p => p.1.str).Nodup := by
      rw [mapAccessIter, attributesOf_eq, blocksOf_eq, List.map_append, List.map_map, List.map_map, List.nodup_append]
      refine ⟨hd, ordered_nodup ord b, fun x hx y hy hxy => ?_⟩
      obtain ⟨p, hp, rfl⟩ := List.mem_map.1 hx
      obtain ⟨q, hq, rfl⟩ := List.mem_map.1 hy
      have : q.1.str ∈ (Blocks.new (blocks b)).map fun p => p.1.str :=
        List.mem_map_of_mem ((ord.perm _).mem_iff.1 hq)
      obtain ⟨c, hc', ht⟩ := new_types.1 this
      exact hc ⟨p, hp, c, hc', by rw [ht]; exact hxy⟩
    have := drains_body_done hn
    rw [mapAccessIter, attributesOf_eq, blocksOf_eq] at this
    simpa [BodyMapAccess.new, mapAccessIter, attributesOf_eq, blocksOf_eq, Function.comp_def, BodyValue.node] using this
  · rw [((ord.perm _).map _).mem_iff]; exact new_types
  · exact new_mem ((ord.perm _).mem_iff.1 hp)

/-- C44: the first repeated attribute is reported; the entries before it have been yielded in source order. -/
theorem c44_duplicate_reported (ord : HashOrder) (b : Body) (pre post : List (CowStr × Expr)) (k : CowStr) (e : Expr)
    (hb : attrs b = pre ++ (k, e) :: post) (hp : Distinct pre) (hk : k.str ∈ pre.map fun p => p.1.str) :
    Drains (.body (.new ord b)) (pre.map fun p => (p.1, .expr p.2)) (.error (.bodyDuplicateKey k.str)) := by
  have hm : ((pre.map fun p => (p.1, BodyValue.expression p.2)).map fun p => p.1.str) = pre.map fun p => p.1.str := by
    simp
  have := drains_body_dup (pre := pre.map fun p => (p.1, BodyValue.expression p.2)) (k := k) (x := .expression e)
    (post := post.map (fun p => (p.1, BodyValue.expression p.2)) ++
      (ord.order (Blocks.new (blocks b))).map fun p => (p.1, BodyValue.block p.2)) (by rw [hm]; exact hp)
    (by rw [hm]; exact hk)
  simpa [BodyMapAccess.new, mapAccessIter, attributesOf_eq, blocksOf_eq, hb, BodyValue.node, BodyValue.stop,
    Function.comp_def] using this

/-- C44: reading a body fails with an error exactly if an attribute name is repeated, and then with `BodyDuplicateKey`
and a name that is repeated. -/
theorem c44_error_iff (ord : HashOrder) (b : Body) :
    ((∃ es e, Drains (.body (.new ord b)) es (.error e)) ↔ ¬ Distinct (attrs b)) ∧
    ∀ es e, Drains (.body (.new ord b)) es (.error e) → ∃ p ∈ attrs b, e = .bodyDuplicateKey p.1.str := by
  have hdup : ¬ Distinct (attrs b) → ∃ es, ∃ p ∈ attrs b,
      Drains (.body (.new ord b)) es (.error (.bodyDuplicateKey p.1.str)) := by
    intro h
    obtain ⟨pre, k, x, post, h1, h2, h3⟩ := exists_first_dup _ h
    exact ⟨_, (k, x), by rw [h1]; simp, c44_duplicate_reported ord b pre post k x h1 h2 h3⟩
  have hno : Distinct (attrs b) → ∀ es e, ¬ Drains (.body (.new ord b)) es (.error e) := by
    intro hd es e h
    have hl := mapAccessIter ord b
    by_cases hc : NameClash b
    · -- a clash panics
      have hx : ¬ Distinct (mapAccessIter ord b) := by
        intro hn
        obtain ⟨p, hp, q, hq, hpq⟩ := hc
        unfold Distinct at hn
        rw [mapAccessIter, List.map_append, List.nodup_append, attributesOf_eq, blocksOf_eq] at hn
        have h1 : q.type.str ∈ (ord.order (Blocks.new (blocks b))).map fun p => p.1.str :=
          ((ord.perm _).map _).mem_iff.2 (new_types.2 ⟨q, hq, rfl⟩)
        refine hn.2.2 p.1.str ?_ q.type.str ?_ hpq
        · exact List.mem_map.2 ⟨(p.1, .expression p.2), List.mem_map.2 ⟨p, hp, rfl⟩, rfl⟩
        · obtain ⟨r, hr, hr'⟩ := List.mem_map.1 h1
          exact List.mem_map.2 ⟨(r.1, .block r.2), List.mem_map.2 ⟨r, hr, rfl⟩, hr'⟩
      obtain ⟨pre, k, x, post, h1, h2, h3⟩ := exists_first_dup _ hx
      have hD := drains_body_dup (post := post) (x := x) h2 h3
      rw [← h1] at hD
      obtain ⟨-, hs⟩ := drains_functional h hD
      cases x with
      | block c => cases hs
      | expression e' =>
        -- then the attributes are not distinct
        rw [mapAccessIter, attributesOf_eq] at h1
        rcases List.append_eq_append_iff.1 h1.symm with ⟨as, ha, hb⟩ | ⟨cs, ha, hb⟩
        · cases as with
          | nil =>
            simp only [List.append_nil, List.nil_append] at ha hb
            have : (k, BodyValue.expression e') ∈ (ord.order (Blocks.new (blocksOf b))).map fun p => (p.1, BodyValue.block p.2) := by
              rw [← hb]; simp
            obtain ⟨r, -, hr⟩ := List.mem_map.1 this
            cases hr
          | cons a as =>
            simp only [List.cons_append, List.cons.injEq] at hb
            obtain ⟨rfl, hb⟩ := hb
            have hd' : (((attrs b).map fun p => (p.1, BodyValue.expression p.2)).map fun p => p.1.str).Nodup := by
              simpa [Distinct, Function.comp_def] using hd
            rw [ha, List.map_append, List.nodup_append] at hd'
            exact hd'.2.2 _ h3 k.str (by simp) rfl
        · have : (k, BodyValue.expression e') ∈ (ord.order (Blocks.new (blocksOf b))).map fun p => (p.1, BodyValue.block p.2) := by
            rw [hb]; simp
          obtain ⟨r, -, hr⟩ := List.mem_map.1 this
          cases hr
    · obtain ⟨bs, hD, -⟩ := c44_attributes_then_block_types ord b hd hc
      obtain ⟨-, hs⟩ := drains_functional h hD
      cases hs
  refine ⟨⟨fun ⟨es, e, h⟩ hd => hno hd es e h, fun h => ?_⟩, fun es e h => ?_⟩
  · obtain ⟨es, p, -, hD⟩ := hdup h
    exact ⟨es, _, hD⟩
  · by_cases hd : Distinct (attrs b)
    · exact absurd h (hno hd es e)
    · obtain ⟨es', p, hp, hD⟩ := hdup hd
      obtain ⟨-, hs⟩ := drains_functional h hD
      injection hs with hs
      exact ⟨p, hp, hs⟩

/-- C44, what is lost: of two runs of blocks of one type that are not adjacent, only the last is deserialized. -/
theorem c44_earlier_run_lost :
    Drains (.body (.new ord0 [bel "a" "1", bel "b" "2", bel "a" "3"]))
      [(idt "a", .block (.body [[att "v" "3"]])), (idt "b", .block (.body [[att "v" "2"]]))] .done :=
  drains_body_done (l := mapAccessIter ord0 [bel "a" "1", bel "b" "2", bel "a" "3"]) (by decide)

/-- C44: two attributes and two types of blocks, interleaved -/
example : Distinct (attrs [bel "a" "1", att "x" "2", bel "b" "3", att "y" "4"]) ∧
    ¬ NameClash [bel "a" "1", att "x" "2", bel "b" "3", att "y" "4"] := by
  refine ⟨by unfold Distinct; decide, ?_⟩
  rintro ⟨p, hp, q, hq, h⟩
  simp only [attrs, blocks, att, bel, List.filterMap_cons, List.filterMap_nil, List.mem_cons, List.not_mem_nil, or_false] at hp hq
  rcases hp with rfl | rfl <;> rcases hq with rfl | rfl <;> revert h <;> decide

/-- C44: a repeated attribute -/
example : Drains (.body (.new ord0 [att "x" "1", bel "b" "2", att "y" "3", att "x" "4"]))
    [(idt "x", .expr (.string (idt "1"))), (idt "y", .expr (.string (idt "3")))]
    (.error (.bodyDuplicateKey "x".toList)) :=
  c44_duplicate_reported ord0 _ [(idt "x", .string (idt "1")), (idt "y", .string (idt "3"))] [] (idt "x")
    (.string (idt "4")) rfl (by unfold Distinct; decide) (by decide)

/-! ## C45 -/

/-- C45: reading a body never returns an error because of an attribute and a block of the same name: it panics. It
panics exactly if such a pair exists and the attribute names are distinct; otherwise (with a repeated attribute) the
error comes first. All attributes are yielded before. -/
theorem c45_clash_panics (ord : HashOrder) (b : Body) :
    ((∃ es, Drains (.body (.new ord b)) es .panicked) ↔ Distinct (attrs b) ∧ NameClash b) ∧
    (Distinct (attrs b) → NameClash b → ∃ bs, Drains (.body (.new ord b))
      ((attrs b).map (fun p => (p.1, .expr p.2)) ++ bs) .panicked) := by
  have hpanic : Distinct (attrs b) → NameClash b → ∃ bs, Drains (.body (.new ord b))
      ((attrs b).map (fun p => (p.1, .expr p.2)) ++ bs) .panicked := by
    intro hd ⟨p, hp, q, hq, hpq⟩
    have h1 : q.type.str ∈ (ord.order (Blocks.new (blocks b))).map fun p => p.1.str :=
      ((ord.perm _).map _).mem_iff.2 (new_types.2 ⟨q, hq, rfl⟩)
    -- the first block whose type is the name of an attribute
    have key : ∀ l : List (CowStr × BlockBody), (l.map fun p => p.1.str).Nodup →
        (∃ r ∈ l, ∃ p ∈ attrs b, p.1.str = r.1.str) →
        ∃ l1 r l2, l = l1 ++ r :: l2 ∧ (∀ r' ∈ l1, ∀ p ∈ attrs b, p.1.str ≠ r'.1.str) ∧ ∃ p ∈ attrs b, p.1.str = r.1.str := by
      intro l
      induction l with
      | nil => rintro - ⟨r, hr, -⟩; cases hr
      | cons r l ih =>
        intro hn hex
        by_cases hr : ∃ p ∈ attrs b, p.1.str = r.1.str
        · exact ⟨[], r, l, rfl, by simp, hr⟩
        · have hl : ∃ r ∈ l, ∃ p ∈ attrs b, p.1.str = r.1.str := by
            obtain ⟨r', hr', h'⟩ := hex
            rcases List.mem_cons.1 hr' with rfl | hr'
            · exact absurd h' hr
            · exact ⟨r', hr', h'⟩
          obtain ⟨l1, r', l2, rfl, h2, h3⟩ := ih (List.nodup_cons.1 hn).2 hl
          refine ⟨r :: l1, r', l2, rfl, fun r'' h'' => ?_, h3⟩
          rcases List.mem_cons.1 h'' with rfl | h''
          · exact fun p hp he => hr ⟨p, hp, he⟩
          · exact h2 r'' h''
    have hn := ordered_nodup ord b
    obtain ⟨r, hr, hr'⟩ := List.mem_map.1 h1
    obtain ⟨l1, r, l2, hl, h2, p', hp', h3⟩ := key _ hn ⟨r, hr, p, hp, by rw [hpq, ← hr']⟩
    refine ⟨l1.map fun p => (p.1, .block p.2), ?_⟩
    have := drains_body_dup (pre := (attrs b).map (fun p => (p.1, BodyValue.expression p.2)) ++
        l1.map fun p => (p.1, BodyValue.block p.2)) (k := r.1) (x := .block r.2)
      (post := l2.map fun p => (p.1, BodyValue.block p.2)) ?_ ?_
    · simpa [BodyMapAccess.new, mapAccessIter, attributesOf_eq, blocksOf_eq, hl, BodyValue.node, BodyValue.stop,
        Function.comp_def] using this
    · rw [List.map_append, List.map_map, List.map_map, List.nodup_append]
      refine ⟨hd, ?_, ?_⟩
      · rw [hl, List.map_append, List.nodup_append] at hn
        exact hn.1
      · intro x hx y hy hxy
        obtain ⟨p, hp, rfl⟩ := List.mem_map.1 hx
        obtain ⟨r', hr', rfl⟩ := List.mem_map.1 hy
        exact h2 r' hr' p hp hxy
    · rw [List.map_append, List.mem_append, ← h3]
      exact .inl (List.mem_map.2 ⟨(p'.1, .expression p'.2), List.mem_map.2 ⟨p', hp', rfl⟩, rfl⟩)
  refine ⟨⟨fun ⟨es, h⟩ => ?_, fun ⟨h1, h2⟩ => ?_⟩, hpanic⟩
  · by_cases hd : Distinct (attrs b)
    · refine ⟨hd, Classical.byContradiction fun hc => ?_⟩
      obtain ⟨bs, hD, -⟩ := c44_attributes_then_block_types ord b hd hc
      obtain ⟨-, hs⟩ := drains_functional h hD
      cases hs
    · obtain ⟨es', e, hD⟩ := (c44_error_iff ord b).1.2 hd
      obtain ⟨-, hs⟩ := drains_functional h hD
      cases hs
  · obtain ⟨bs, h⟩ := hpanic h1 h2
    exact ⟨_, h⟩

/-- C45 does not hold as stated: `x = "1"` with `x { }` -/
example : Distinct (attrs [att "x" "1", bel "x" "2"]) ∧ NameClash [att "x" "1", bel "x" "2"] :=
  ⟨by unfold Distinct; decide, (idt "x", .string (idt "1")), by simp [attrs], ⟨idt "x", [], [att "v" "2"]⟩, by simp [blocks], rfl⟩

/-! ## C46 -/

/-- An object with identifier keys only. -/
abbrev identObject (l : List (CowStr × Expr)) : List (ObjKey × Expr) := l.map fun p => (.ident p.1, p.2)

/-- C46: an object whose keys are distinct identifiers: every entry once, in order. -/
theorem c46_entries (l : List (CowStr × Expr)) (h : Distinct l) :
    Drains (.object (.new (identObject l))) (l.map fun p => (p.1, .expr p.2)) .done := drains_object_done h

/-- C46: a repeated identifier key is reported as `ObjectDuplicateKey`, after the entries before it. -/
theorem c46_duplicate (pre : List (CowStr × Expr)) (k : CowStr) (e : Expr) (post : List (ObjKey × Expr))
    (h : Distinct pre) (hk : k.str ∈ pre.map fun p => p.1.str) :
    Drains (.object (.new (identObject pre ++ (.ident k, e) :: post))) (pre.map fun p => (p.1, .expr p.2))
      (.error (.objectDuplicateKey k.str)) := drains_object_dup h hk

/-- C46: an expression key panics, after the entries before it. -/
theorem c46_expression_key (pre : List (CowStr × Expr)) (k : CowStr) (e : Expr) (post : List (ObjKey × Expr))
    (h : Distinct pre) :
    Drains (.object (.new (identObject pre ++ (.expr k, e) :: post))) (pre.map fun p => (p.1, .expr p.2)) .panicked :=
  drains_object_expr h

/-- C46: every object is of one of these three kinds. -/
theorem c46_complete (o : List (ObjKey × Expr)) :
    (∃ l, o = identObject l ∧ Distinct l) ∨
    (∃ pre k e post, o = identObject pre ++ (.ident k, e) :: post ∧ Distinct pre ∧ k.str ∈ pre.map fun p => p.1.str) ∨
    (∃ pre k e post, o = identObject pre ++ (.expr k, e) :: post ∧ Distinct pre) := by
  have : ∀ (o : List (ObjKey × Expr)) (pre : List (CowStr × Expr)), Distinct pre →
      (∃ l, identObject pre ++ o = identObject l ∧ Distinct l) ∨
      (∃ pre' k e post, identObject pre ++ o = identObject pre' ++ (.ident k, e) :: post ∧ Distinct pre' ∧
        k.str ∈ pre'.map fun p => p.1.str) ∨
      (∃ pre' k e post, identObject pre ++ o = identObject pre' ++ (.expr k, e) :: post ∧ Distinct pre') := by
    intro o
    induction o with
    | nil => intro pre h; exact .inl ⟨pre, by simp, h⟩
    | cons p o ih =>
      intro pre h
      obtain ⟨k, e⟩ := p
      cases k with
      | expr k => exact .inr (.inr ⟨pre, k, e, o, rfl, h⟩)
      | ident k =>
        by_cases hk : k.str ∈ pre.map fun p => p.1.str
        · exact .inr (.inl ⟨pre, k, e, o, rfl, h, hk⟩)
        · have h' : Distinct (pre ++ [(k, e)]) := by
            unfold Distinct at h ⊢
            rw [List.map_append, List.nodup_append]
            refine ⟨h, by simp, fun a ha b hb => ?_⟩
            simp only [List.map_cons, List.map_nil, List.mem_singleton] at hb
            subst hb
            rintro rfl; exact hk ha
          simpa [identObject] using ih (pre ++ [(k, e)]) h'
  simpa [identObject] using this o [] List.nodup_nil

/-- C46: `{ a = 1, b = 2, a = 3 }` -/
example : Drains (.object (.new [(.ident (idt "a"), .null), (.ident (idt "b"), .boolean true), (.ident (idt "a"), .null)]))
    [(idt "a", .expr .null), (idt "b", .expr (.boolean true))] (.error (.objectDuplicateKey "a".toList)) :=
  c46_duplicate [(idt "a", .null), (idt "b", .boolean true)] (idt "a") .null [] (by unfold Distinct; decide) (by decide)

/-! ## C47 (the visitor; the integer types are in `Props/DeTypes.lean`) -/

/-- C47: for an integer literal the visitor gets exactly its value, as an `i64`, or there is an error; whichever method
is called, except `deserialize_option` and `deserialize_newtype_struct`. -/
theorem c47_integer_visit (P : F64Parse) (t : Str) (n : Number) (h : IsNumber t n) (k : Int) (hk : IntLit t k)
    (hint : Hint) (ho : hint ≠ .option) (hn : hint ≠ .newtypeStruct) :
    (-(2 ^ 63) ≤ k ∧ k < 2 ^ 63 → (Expr.number n).deserialize P hint = .ok (.i64 k)) ∧
    (¬ (-(2 ^ 63) ≤ k ∧ k < 2 ^ 63) → (Expr.number n).deserialize P hint = .error .parseInt) := by
  have hf : n.isFloat = false := by
    cases hf : n.isFloat with
    | false => rfl
    | true => exact absurd hk (float_not_intLit h hf)
  have hs : n.isSigned = true := by simpa [Number.isFloat] using hf
  have hd : (Expr.number n).deserialize P hint = deserializeNumber P n := by
    cases hint <;> first | rfl | exact absurd rfl ho | exact absurd rfl hn
  have hc := c11_conversion_exact ⟨true, 64⟩ t n h
  have hr : ∀ k : Int, (IntTy.min ⟨true, 64⟩ ≤ k ∧ k ≤ IntTy.max ⟨true, 64⟩) ↔ (-(2 ^ 63) ≤ k ∧ k < 2 ^ 63) := by
    intro k
    have h1 : IntTy.min ⟨true, 64⟩ = -(2 ^ 63) := rfl
    have h2 : IntTy.max ⟨true, 64⟩ = 2 ^ 63 - 1 := rfl
    rw [h1, h2]; omega
  rw [hd, deserializeNumber, hf, hs]
  constructor
  · intro hk'
    have := (hc k).2 ⟨hk, (hr k).2 hk', .inl rfl⟩
    simp [this]
  · intro hk'
    cases he : n.asInt ⟨true, 64⟩ with
    | none => simp
    | some j =>
      obtain ⟨h1, h2, -⟩ := (hc j).1 he
      exact absurd ((hr k).1 (intLit_functional h1 hk ▸ h2)) hk'

/-- C47: `visit_u64` is never called, whatever is deserialized and however: literals above `i64::MAX` are errors. -/
theorem c47_u64_dead (P : F64Parse) (ord : HashOrder) (n : Node) (hint : Hint) (k : Int) :
    n.deserialize P ord hint ≠ .ok (.u64 k) := by
  have hnum : ∀ n : Number, deserializeNumber P n ≠ .ok (.u64 k) := by
    intro n h
    unfold deserializeNumber at h
    split at h
    · cases hp : P n.input.str <;> simp [hp] at h
    · rename_i hf
      have hs : n.isSigned = true := by simpa [Number.isFloat] using hf
      rw [if_pos hs] at h
      cases hp : n.asInt ⟨true, 64⟩ <;> simp [hp] at h
  have hany : ∀ e : Expr, e.deserializeAny P ≠ .ok (.u64 k) := by
    intro e h
    cases e with
    | number n => exact hnum n h
    | string s => simp only [Expr.deserializeAny, deserializeString] at h; split at h <;> simp at h
    | _ => simp [Expr.deserializeAny, deserializeTuple] at h
  cases n with
  | expr e =>
    intro h
    cases hint with
    | option => cases e <;> simp [Node.deserialize, Expr.deserialize] at h
    | newtypeStruct => simp [Node.deserialize, Expr.deserialize] at h
    | tuple l =>
      cases e <;> simp only [Node.deserialize, Expr.deserialize] at h
      case tuple es => unfold deserializeTuple at h; dsimp only at h; split at h <;> simp at h
      all_goals exact hany _ h
    | tupleStruct l =>
      cases e <;> simp only [Node.deserialize, Expr.deserialize] at h
      case tuple es => unfold deserializeTuple at h; dsimp only at h; split at h <;> simp at h
      all_goals exact hany _ h
    | any => exact hany e h
    | seq => exact hany e h
    | enum => exact hany e h
    | forward => exact hany e h
  | body b => simp [Node.deserialize, Body.deserialize]
  | key s =>
    simp only [Node.deserialize, keyDeserialize]
    split
    · simp
    · split <;> simp
  | block b =>
    have hb : b.deserializeAny ord ≠ .ok (.u64 k) := by
      intro h
      unfold BlockBody.deserializeAny at h
      repeat' split at h
      all_goals simp [Body.deserialize, deserializeBodySeq] at h
    intro h
    cases hint with
    | option => simp only [Node.deserialize, BlockBody.deserialize] at h; split at h <;> simp at h
    | seq =>
      simp only [Node.deserialize, BlockBody.deserialize] at h
      repeat' split at h
      all_goals simp [Body.deserialize, deserializeBodySeq] at h
    | _ => exact hb h

/-- C47: a float literal is given to `visit_f64` as parsed by the standard library. -/
theorem c47_float_visit (P : F64Parse) (n : Number) (hf : n.isFloat = true) (x : F64) (hx : P n.text = some x) :
    (Expr.number n).deserialize P .forward = .ok (.f64 x) := by
  show deserializeNumber P n = _
  rw [Number.text] at hx
  simp [deserializeNumber, hf, hx]

/-! ## C48 -/

/-- C48: `deserialize_option` on an expression reports `None` iff it is `null`; otherwise `Some` of the same
expression. There are no errors. -/
theorem c48_option (P : F64Parse) (e : Expr) :
    (e.deserialize P .option = .ok .none ↔ e = .null) ∧
    (e ≠ .null → e.deserialize P .option = .ok (.some (.expr e))) := by
  cases e <;> simp [Expr.deserialize]

/-! ## C49 -/

/-- C49: `deserialize_tuple(k)` and `deserialize_tuple_struct(k)` on a tuple expression: the elements in order if it
has `k` elements, an error with both lengths otherwise. -/
theorem c49_tuple (P : F64Parse) (es : List Expr) (k : Nat) :
    ((Expr.tuple es).deserialize P (.tuple k) =
      if es.length = k then .ok (.seq (es.map .expr)) else .error (.invalidTupleLength k es.length)) ∧
    (Expr.tuple es).deserialize P (.tupleStruct k) = (Expr.tuple es).deserialize P (.tuple k) := by
  refine ⟨?_, rfl⟩
  simp only [Expr.deserialize, deserializeTuple]
  by_cases h : es.length = k <;> simp [h]

/-- C49: `deserialize_seq` (for `Vec`) takes any number of elements. -/
theorem c49_seq (P : F64Parse) (es : List Expr) : (Expr.tuple es).deserialize P .seq = .ok (.seq (es.map .expr)) := rfl

/-! ## C50 -/

/-- C50: the blocks of one type, none with labels, deserialized by any method other than `deserialize_seq` and
`deserialize_option`: one block is a map, any other number is a sequence of the bodies in source order. -/
theorem c50_unlabelled (ord : HashOrder) (bs : List Body) (h : Hint) (ho : h ≠ .option) (hs : h ≠ .seq) :
    (∀ b, bs = [b] → (BlockBody.fromIter (bs.map fun b => ([], b))).deserialize ord h = .ok (.mapBody (.new ord b))) ∧
    (bs.length ≠ 1 → (BlockBody.fromIter (bs.map fun b => ([], b))).deserialize ord h = .ok (.seq (bs.map .body))) := by
  have he : BlockBody.fromIter (bs.map fun b => ([], b)) = .body bs := by
    have : ∀ (bs pre : List Body), BlockBody.extend (.body pre) (bs.map fun b => ([], b)) = .body (pre ++ bs) := by
      intro bs
      induction bs with
      | nil => intro pre; simp [BlockBody.extend]
      | cons b bs ih => intro pre; simp [BlockBody.extend, BlockBody.append, ih]
    exact this bs []
  have hd : ∀ b : BlockBody, b.deserialize ord h = b.deserializeAny ord := by
    intro b
    cases h <;> first | rfl | exact absurd rfl ho | exact absurd rfl hs
  rw [he, hd]
  refine ⟨fun b hb => by subst hb; rfl, fun hl => ?_⟩
  unfold BlockBody.deserializeAny
  split
  · simp_all
  · simp_all [deserializeBodySeq]
  · simp_all

/-- C50: `deserialize_seq` gives all bodies in source order, also for a single one. -/
theorem c50_seq (ord : HashOrder) (bs : List Body) :
    (BlockBody.body bs).deserialize ord .seq = .ok (.seq (bs.map .body)) := rfl

/-- C50: if any of the blocks has a label, every method other than `deserialize_option` panics. -/
theorem c50_labelled {b : BlockBody} {hist : List (List BlockLabel × Body)} (hb : Built b hist) (ord : HashOrder) (h : Hint)
    (ho : h ≠ .option) : b.deserialize ord h = .panic ↔ ∃ p ∈ hist, p.1 ≠ [] := by
  have hk : (∃ p ∈ hist, p.1 ≠ []) ↔ b.hasFurtherLabels = true := by
    induction hb with
    | default => simp [BlockBody.default, BlockBody.hasFurtherLabels]
    | append b hist ls x hb ih =>
      rw [show (∃ p ∈ hist ++ [(ls, x)], p.1 ≠ []) ↔ (∃ p ∈ hist, p.1 ≠ []) ∨ ls ≠ [] by
        simp [or_and_right, exists_or], ih]
      cases b with
      | body bs => cases ls <;> simp [BlockBody.append, BlockBody.hasFurtherLabels]
      | labels e m =>
        cases ls with
        | nil => simp [BlockBody.append, BlockBody.hasFurtherLabels]
        | cons l ls =>
          simp only [BlockBody.append, ne_eq, reduceCtorEq, not_false_eq_true, or_true, true_iff,
            BlockBody.hasFurtherLabels]
          cases m with
          | nil => rfl
          | cons p m => obtain ⟨k, v⟩ := p; simp only [HashMap.upsert]; split <;> rfl
    | reorder b b' hist hb hs ih =>
      rw [ih]
      cases hs with
      | body => rfl
      | labels e m m' hm =>
        have := sameLabels_nil hm
        cases m <;> cases m' <;> simp_all [BlockBody.hasFurtherLabels]
  have hany : b.deserializeAny ord = .panic ↔ b.hasFurtherLabels = true := by
    cases b with
    | body bs =>
      unfold BlockBody.deserializeAny
      constructor
      · intro h; split at h <;> simp_all [Body.deserialize, deserializeBodySeq]
      · intro h; cases h
    | labels e m =>
      unfold BlockBody.deserializeAny
      cases m with
      | nil =>
        constructor
        · intro h; simp only [List.isEmpty_nil, if_true] at h; split at h <;> cases h
        · intro h; cases h
      | cons p m => simp [BlockBody.hasFurtherLabels]
  rw [hk]
  cases h with
  | option => exact absurd rfl ho
  | seq =>
    cases b with
    | body bs => simp [BlockBody.deserialize, deserializeBodySeq, BlockBody.hasFurtherLabels]
    | labels e m => exact hany
  | _ => exact hany

/-- C50: an optional block is always `Some` of the blocks, because a type without blocks is not in the map. -/
theorem c50_option {b : BlockBody} {hist : List (List BlockLabel × Body)} (hb : Built b hist) (ord : HashOrder) :
    b.deserialize ord .option = if hist = [] then .ok .none else .ok (.some (.block b)) := by
  have : b.lenBlocks = hist.length := by
    have := (built_bodies hb).length_eq
    simpa [lenBlocks_eq] using this
  simp only [BlockBody.deserialize, this, List.length_eq_zero_iff]

/-- C50: two blocks, and a labelled one -/
example : Built (BlockBody.fromIter [([], bodyOf "1"), ([.stringLiteral ['x']], bodyOf "2")])
    [([], bodyOf "1"), ([.stringLiteral ['x']], bodyOf "2")] :=
  by simpa [BlockBody.fromIter] using built_extend (l := [([], bodyOf "1"), ([.stringLiteral ['x']], bodyOf "2")]) Built.default

/-! ## C51 (with `c51_…` in `Props/Sources.lean`) -/

/-- C51: `visit_borrowed_str` is called exactly for string expressions whose text is borrowed, `visit_string` for those
whose text is owned; with the text itself. -/
theorem c51_visit (P : F64Parse) (e : Expr) (s : Str) :
    (e.deserialize P .forward = .ok (.borrowedStr s) ↔ e = .string (.borrowed s)) ∧
    (e.deserialize P .forward = .ok (.string s) ↔ e = .string (.ownedS s)) := by
  have hnum : ∀ n : Number, deserializeNumber P n ≠ .ok (.borrowedStr s) ∧ deserializeNumber P n ≠ .ok (.string s) := by
    intro n
    unfold deserializeNumber
    split
    · cases P n.input.str <;> simp
    · split
      · cases n.asInt ⟨true, 64⟩ <;> simp
      · cases n.asInt ⟨false, 64⟩ <;> simp
  cases e with
  | string c =>
    obtain ⟨o, t⟩ := c
    cases o <;> simp [Expr.deserialize, Expr.deserializeAny, deserializeString, CowStr.borrowed, CowStr.ownedS]
  | number n => simp [Expr.deserialize, Expr.deserializeAny, hnum n]
  | _ => simp [Expr.deserialize, Expr.deserializeAny, deserializeTuple]

/-! ## C52 -/

/-- C52: the result of a key seed does not influence the access, and the seed is given the key or not called at all:
it suffices to know what happens with the seed that keeps the key. -/
theorem c52_key_seed {α : Type} (a : MapAcc) (seed : CowStr → Res DeErr α) :
    (a.nextKey seed).2 = (a.nextKey .ok).2 ∧
    (a.nextKey seed).1 = (a.nextKey .ok).1.bind fun
      | none => .ok none
      | some k => (seed k).map some := by
  cases a with
  | object a =>
    obtain ⟨l, v, seen⟩ := a
    cases l with
    | nil => exact ⟨rfl, rfl⟩
    | cons p l =>
      obtain ⟨k, x⟩ := p
      cases k with
      | expr k => exact ⟨rfl, rfl⟩
      | ident k =>
        simp only [MapAcc.nextKey, ObjectMapAccess.nextKey, ObjKey.asStr]
        split
        · exact ⟨rfl, rfl⟩
        · refine ⟨rfl, ?_⟩
          simp only [Res.bind, Res.map]
          cases seed k <;> rfl
  | body a =>
    obtain ⟨l, v, seen⟩ := a
    cases l with
    | nil => exact ⟨rfl, rfl⟩
    | cons p l =>
      obtain ⟨k, x⟩ := p
      simp only [MapAcc.nextKey, BodyMapAccess.nextKey]
      split
      · cases x <;> exact ⟨rfl, rfl⟩
      · refine ⟨rfl, ?_⟩
        simp only [Res.bind, Res.map]
        cases seed k <;> rfl

/-- C52: the same for value seeds. -/
theorem c52_value_seed {α : Type} (a : MapAcc) (seed : Node → Res DeErr α) :
    (a.nextValue seed).2 = (a.nextValue .ok).2 ∧ (a.nextValue seed).1 = (a.nextValue .ok).1.bind seed := by
  cases a with
  | object a => obtain ⟨l, v, seen⟩ := a; cases v <;> exact ⟨rfl, rfl⟩
  | body a =>
    obtain ⟨l, v, seen⟩ := a
    cases v with
    | none => exact ⟨rfl, rfl⟩
    | some v => cases v <;> exact ⟨rfl, rfl⟩

/-- The entries of a source: an object or a body. -/
inductive Source where
  | object (o : List (ObjKey × Expr))
  | body (ord : HashOrder) (b : Body)

/-- The map access made for it. -/
def Source.access : Source → MapAcc
  | .object o => .object (.new o)
  | .body ord b => .body (.new ord b)

/-- It has this entry. -/
def Source.Entry : Source → CowStr → Node → Prop
  | .object o, k, n => ∃ e, (ObjKey.ident k, e) ∈ o ∧ n = .expr e
  | .body ord b, k, n => (∃ e, (k, e) ∈ attrs b ∧ n = .expr e) ∨
      ∃ c, (k, c) ∈ ord.order (Blocks.new (blocks b)) ∧ n = .block c

/-- Its number of entries. -/
def Source.size : Source → Nat
  | .object o => o.length
  | .body _ b => (attrs b).length + (Blocks.new (blocks b)).length

theorem source_inv (s : Source) (ops : List MapOp) :
    MapInv s.Entry s.size (afterOps s.access ops) (runOps s.access ops) (ops.count .key) := by
  cases s with
  | object o =>
    have := mapInv_run ops (mapInv_object o)
    rw [Nat.zero_add, List.nil_append] at this
    exact this
  | body ord b =>
    have := mapInv_run ops (mapInv_body ord b)
    have hl : (mapAccessIter ord b).length = (Source.body ord b).size := by
      simp [mapAccessIter, Source.size, attributesOf_eq, blocksOf_eq, (ord.perm _).length_eq]
    have he : (fun k n => ∃ v, (k, v) ∈ mapAccessIter ord b ∧ n = BodyValue.node v) = (Source.body ord b).Entry := by
      funext k n
      simp only [mapAccessIter, Source.Entry, attributesOf_eq, blocksOf_eq, List.mem_append, List.mem_map, eq_iff_iff]
      constructor
      · rintro ⟨v, ⟨p, hp, h⟩ | ⟨p, hp, h⟩, rfl⟩
        · cases h; exact .inl ⟨p.2, hp, rfl⟩
        · cases h; exact .inr ⟨p.2, hp, rfl⟩
      · rintro (⟨e, he, rfl⟩ | ⟨c, hc, rfl⟩)
        · exact ⟨.expression e, .inl ⟨(k, e), he, rfl⟩, rfl⟩
        · exact ⟨.block c, .inr ⟨(k, c), hc, rfl⟩, rfl⟩
    rw [hl, he] at this
    simpa [Source.access] using this

/-- C52: after any sequence of calls, `next_value` gives the value of the last key given if it has not been asked for,
and panics if there is none. -/
theorem c52_next_value (s : Source) (ops : List MapOp) :
    ∃ ev, runOps s.access (ops ++ [.value]) = runOps s.access ops ++ [ev] ∧
      ((∃ k n, Pending (runOps s.access ops) k ∧ s.Entry k n ∧ ev = .gaveValue n) ∨
       ((∀ k, ¬ Pending (runOps s.access ops) k) ∧ ev = .valuePanic)) := by
  have hi := source_inv s ops
  refine ⟨_, runOps_append ops [.value] _, ?_⟩
  rcases nextValue_cases (afterOps s.access ops) with ⟨h1, h2⟩ | ⟨n, a', h1, h2, -⟩
  · exact .inr ⟨hi.none h1, by rw [h2]; rfl⟩
  · obtain ⟨k, hk, he⟩ := hi.some n h1
    exact .inl ⟨k, n, hk, he, by rw [h2]; rfl⟩

/-- C52: after any sequence of calls, `next_key` reports the end iff it has been called at least as often as there are
entries (so it keeps reporting it), and `size_hint` is the exact number of entries not yet visited. -/
theorem c52_end (s : Source) (ops : List MapOp) :
    (∃ ev, runOps s.access (ops ++ [.key]) = runOps s.access ops ++ [ev] ∧
      (ev = .ended ↔ s.size ≤ ops.count .key)) ∧
    (match afterOps s.access ops with
      | .object a => a.sizeHint
      | .body a => a.sizeHint) = some (s.size - ops.count .key) := by
  have hi := source_inv s ops
  constructor
  · refine ⟨_, runOps_append ops [.key] _, ?_⟩
    have hc := hi.count
    rcases nextKey_cases (afterOps s.access ops) with ⟨h1, h2⟩ | ⟨k, n, a', h1, -, -, h4, -⟩ | ⟨r, a', h1, h2, -, h4, -⟩
    · rw [h2]; simp only [keyEvent, true_iff]; omega
    · rw [h1]; simp only [keyEvent, reduceCtorEq, false_iff]; omega
    · rw [h1]
      have : keyEvent r ≠ .ended := by rcases h2 with ⟨e, rfl⟩ | rfl <;> simp [keyEvent]
      simp only [this, false_iff]; omega
  · have hc := hi.count
    cases h : afterOps s.access ops <;> rw [h] at hc <;> exact congrArg some hc

/-- C52: in any sequence of calls no key is given twice. -/
theorem c52_keys_once (s : Source) (ops : List MapOp) : ((keysGiven (runOps s.access ops)).map CowStr.str).Nodup := by
  have hi := source_inv s ops
  rw [← hi.given]
  exact (List.reverse_perm _).nodup_iff.2 hi.nodup

/-- C52: the usual alternation on `{ a = 1, b = 2 }`, then calls too many -/
example : runOps (Source.object [(.ident (idt "a"), .null), (.ident (idt "b"), .boolean true)]).access
    [.key, .value, .key, .value, .value, .key, .key] =
    [.gaveKey (idt "a"), .gaveValue (.expr .null), .gaveKey (idt "b"), .gaveValue (.expr (.boolean true)), .valuePanic,
      .ended, .ended] := rfl

end Verif.Props
