import Verif.Model.Construct
import Verif.Props.Floats
import Verif.Props.Print
import Verif.Props.Merge
/-!
# C65: trees built in code
-/
set_option autoImplicit false

namespace Verif.Spec

/-- Expressions built in code from integers, finite floats, booleans, strings, `()`, tuples, and objects whose keys are
identifiers. -/
inductive Constructed (U : CharClass) (T : FloatTy) (finite : T.F → Prop) : Expr → Prop
  | unit : Constructed U T finite .ofUnit
  | bool (b : Bool) : Constructed U T finite (.ofBool b)
  | int (I : IntTy) (checks : Bool) (k : Int) (e : Expr) : I.min ≤ k → k ≤ I.max → (I.signed = true → k ≠ I.min) →
      Expr.ofInt I checks k = some e → Constructed U T finite e
  | float (x : T.F) : finite x → Constructed U T finite (.ofFloat T x)
  | str (s : Str) : Constructed U T finite (.ofStr s)
  | cow (s : CowStr) : Constructed U T finite (.ofCow s)
  | tuple (es : List Expr) : (∀ e ∈ es, Constructed U T finite e) → Constructed U T finite (.newTuple es)
  | object (es : List (Str × Expr)) : (∀ p ∈ es, IsIdent U p.1) → (∀ p ∈ es, Constructed U T finite p.2) →
      Constructed U T finite (.newObject ObjKey.ofStr es)

/-- Elements of bodies built in code: attributes, and blocks with constructed bodies, whose names, types and identifier labels
are identifiers. -/
inductive ConstructedElement (U : CharClass) (T : FloatTy) (finite : T.F → Prop) : BodyElement → Prop
  | «attribute» (k : CowStr) (e : Expr) : IsIdent U k.str → Constructed U T finite e → ConstructedElement U T finite (.ofAttribute (k, e))
  | block (t : CowStr) (ls : List BlockLabel) (b : Body) : IsIdent U t.str →
      (∀ l ∈ ls, (∃ s, l = .stringLiteral s) ∨ ∃ s, IsIdent U s ∧ l = .ofStr s) → (∀ el ∈ b, ConstructedElement U T finite el) →
      ConstructedElement U T finite (.ofBlock (.new t ls b))

end Verif.Spec

namespace Verif.Props
open Verif Spec

variable (U : CharClass)

theorem fromInt_printable {I : IntTy} {checks : Bool} {k : Int} {n : Number} (h1 : I.min ≤ k) (h2 : k ≤ I.max)
    (h3 : I.signed = true → k ≠ I.min) (h : Number.fromInt I checks k = some n) : IsNumber n.input.str (forgetNumber n) := by
  have hd := decimal_spec k.natAbs
  have key : n.input.str = decimalInt k ∧ n.positive = decide (0 ≤ k) ∧ n.whole.map CowStr.str = some (decimal k.natAbs) ∧
      n.fraction = none ∧ n.exponent = none := by
    have habs : decimalInt (k.natAbs : Int) = decimal k.natAbs := by
      unfold decimalInt; rw [if_neg (by omega)]; simp
    unfold Number.fromInt at h
    cases hs : I.signed with
    | true =>
      simp only [hs, if_true, IntTy.abs, if_neg (h3 hs), Option.map_some, Option.some.injEq] at h
      subst h
      exact ⟨rfl, rfl, by simp [CowStr.ownedS, habs], rfl, rfl⟩
    | false =>
      have h0 : 0 ≤ k := by simp [IntTy.min, hs] at h1; exact h1
      have e : decimalInt k = decimal k.natAbs := by unfold decimalInt; rw [if_neg (by omega)]
      simp only [hs, Bool.false_eq_true, if_false, Option.some.injEq] at h
      subst h
      exact ⟨rfl, by simp [h0], by simp [CowStr.ownedS, e], rfl, rfl⟩
  obtain ⟨i, p, w, f, x⟩ := n
  obtain ⟨k1, k2, k3, k4, k5⟩ := key
  simp only at k1 k2 k3 k4 k5
  subst k2 k4 k5
  cases w with
  | none => cases k3
  | some w =>
    simp only [Option.map_some, Option.some.injEq] at k3
    show IsNumber i.str ⟨forgetStr i, _, some (forgetStr w), none, none⟩
    simp only [forgetStr, k3, k1]
    unfold decimalInt
    by_cases hk : k < 0
    · rw [if_pos hk]
      have hn := IsNumber.mk ['-'] (decimal k.natAbs) [] false _ _ _ .minus (.int _ hd.1.1) .none
      simp only [List.append_nil] at hn
      have : decide (0 ≤ k) = false := by simp; omega
      rw [this]
      exact hn
    · rw [if_neg hk]
      have hn := IsNumber.mk [] (decimal k.natAbs) [] true _ _ _ .none (.int _ hd.1.1) .none
      simp only [List.append_nil, List.nil_append] at hn
      have : decide (0 ≤ k) = true := by simp; omega
      rw [this]
      exact hn

theorem fromFloat_printable {T : FloatTy} {finite : T.F → Prop} (hT : ShowsFloats T finite) {x : T.F} (hx : finite x) :
    IsNumber (Number.fromFloat T x).input.str (forgetNumber (Number.fromFloat T x)) := by
  obtain ⟨m, hm, h⟩ := fromFloat_isNumber T finite hT x hx
  rw [← h]
  have h1 : m.asOwned.input.str = m.input.str := rfl
  have h2 : forgetNumber m.asOwned = forgetNumber m := by
    rcases m with ⟨i, p, w, f, e⟩
    cases w <;> cases f <;> cases e <;> rfl
  rw [h1, h2]
  exact isNumber_forget hm

theorem mem_tupleLeaves {l : Leaf} : ∀ {es : List Expr}, l ∈ tupleLeaves es → ∃ e ∈ es, l ∈ exprLeaves e
  | [], h => by cases h
  | e :: es, h => by
    simp only [tupleLeaves, List.mem_append] at h
    rcases h with h | h
    · exact ⟨e, List.mem_cons_self .., h⟩
    · obtain ⟨e', h1, h2⟩ := mem_tupleLeaves h
      exact ⟨e', List.mem_cons_of_mem _ h1, h2⟩

theorem mem_objectLeaves {l : Leaf} : ∀ {es : List (ObjKey × Expr)}, l ∈ objectLeaves es →
    ∃ p ∈ es, l = .key p.1 ∨ l ∈ exprLeaves p.2
  | [], h => by cases h
  | (k, e) :: es, h => by
    simp only [objectLeaves, List.mem_append, List.mem_cons] at h
    rcases h with h | h | h
    · exact ⟨(k, e), List.mem_cons_self .., .inl h⟩
    · exact ⟨(k, e), List.mem_cons_self .., .inr h⟩
    · obtain ⟨p, h1, h2⟩ := mem_objectLeaves h
      exact ⟨p, List.mem_cons_of_mem _ h1, h2⟩

theorem constructed_printable {T : FloatTy} {finite : T.F → Prop} (hT : ShowsFloats T finite) {e : Expr}
    (h : Constructed U T finite e) : ∀ l ∈ exprLeaves e, LeafPrintable U l := by
  induction h with
  | unit => intro l hl; cases hl
  | bool => intro l hl; cases hl
  | int I checks k e h1 h2 h3 h =>
    unfold Expr.ofInt at h
    cases hn : Number.fromInt I checks k with
    | none => rw [hn] at h; cases h
    | some n =>
      rw [hn] at h
      simp only [Option.map_some, Option.some.injEq] at h
      subst h
      intro l hl
      rw [exprLeaves, List.mem_singleton] at hl
      subst hl
      exact fromInt_printable h1 h2 h3 hn
  | float x hx =>
    intro l hl
    rw [Expr.ofFloat, exprLeaves, List.mem_singleton] at hl
    subst hl
    exact fromFloat_printable hT hx
  | str s =>
    intro l hl
    rw [Expr.ofStr, exprLeaves, List.mem_singleton] at hl
    subst hl
    trivial
  | cow s =>
    intro l hl
    rw [Expr.ofCow, exprLeaves, List.mem_singleton] at hl
    subst hl
    trivial
  | tuple es _ ih =>
    intro l hl
    rw [Expr.newTuple, exprLeaves] at hl
    obtain ⟨e, h1, h2⟩ := mem_tupleLeaves hl
    exact ih e h1 l h2
  | object es hk _ ih =>
    intro l hl
    rw [Expr.newObject, exprLeaves] at hl
    obtain ⟨p, h1, h2⟩ := mem_objectLeaves hl
    rw [List.mem_map] at h1
    obtain ⟨q, hq, rfl⟩ := h1
    rcases h2 with rfl | h2
    · exact hk q hq
    · exact ih q hq l h2

/-- C65: any expression built in code from integers, finite floats, booleans, strings, `()`, tuples and objects with identifier
keys is what the parser returns (up to ownership) for the text it is written as. -/
theorem c65_constructed_is_parsed (T : FloatTy) (finite : T.F → Prop) (hT : ShowsFloats T finite) (e : Expr)
    (h : Constructed U T finite e) : ∃ e', Expr.parse U (printExpr e) = .ok e' ∧ forgetExpr e' = forgetExpr e :=
  c17_print_then_parse_expression U e (constructed_printable U hT h)

/-- C65: the texts of the simple ones. -/
theorem c65_texts (I : IntTy) (checks : Bool) (k : Int) (T : FloatTy) (x : T.F) (s : Str) :
    printExpr .ofUnit = "null".toList ∧ printExpr (.ofBool true) = "true".toList ∧ printExpr (.ofBool false) = "false".toList ∧
      (∀ e, Expr.ofInt I checks k = some e → printExpr e = decimalInt k) ∧ printExpr (.ofFloat T x) = T.toStr x ∧
      printExpr (.ofStr s) = quote s ∧ printExpr (.ofCow (.ownedS s)) = quote s := by
  refine ⟨rfl, rfl, rfl, ?_, rfl, rfl, rfl⟩
  intro e h
  unfold Expr.ofInt at h
  cases hn : Number.fromInt I checks k with
  | none => rw [hn] at h; cases h
  | some n =>
    rw [hn] at h
    simp only [Option.map_some, Option.some.injEq] at h
    subst h
    have : n.input.str = decimalInt k := by
      unfold Number.fromInt at hn
      cases hs : I.signed with
      | true =>
        simp only [hs, if_true] at hn
        cases ha : I.abs checks k with
        | none => rw [ha] at hn; cases hn
        | some a =>
          rw [ha] at hn
          simp only [Option.map_some, Option.some.injEq] at hn
          subst hn; rfl
      | false =>
        simp only [hs, Bool.false_eq_true, if_false, Option.some.injEq] at hn
        subst hn; rfl
    exact this

/-- C65: the only thing that can go wrong when building is the minimum of a signed type, with overflow checks. -/
theorem c65_int_panics_iff (I : IntTy) (checks : Bool) (k : Int) :
    Expr.ofInt I checks k = none ↔ I.signed = true ∧ checks = true ∧ k = I.min := by
  unfold Expr.ofInt Number.fromInt IntTy.abs
  cases I.signed <;> cases checks <;> by_cases h : k = I.min <;> simp [h]

/-! ## elements of bodies -/

/-- C65: an element is either an attribute or a block, `unwrap_*` panics exactly on the other kind, and gives back what the
element was made from. -/
theorem c65_body_element (el : BodyElement) :
    el.isBlock = !el.isAttribute ∧ (el.unwrapAttribute = none ↔ el.isBlock = true) ∧ (el.unwrapBlock = none ↔ el.isAttribute = true) ∧
      (∀ p, el.unwrapAttribute = some p ↔ el = .ofAttribute p) ∧ (∀ b, el.unwrapBlock = some b ↔ el = .ofBlock b) := by
  cases el with
  | «attribute» k e =>
    refine ⟨rfl, by simp [BodyElement.unwrapAttribute, BodyElement.isBlock], by simp [BodyElement.unwrapBlock, BodyElement.isAttribute], ?_, ?_⟩
    · rintro ⟨k', e'⟩; simp [BodyElement.unwrapAttribute, BodyElement.ofAttribute]
    · rintro ⟨t, ls, b⟩; simp [BodyElement.unwrapBlock, BodyElement.ofBlock]
  | block t ls b =>
    refine ⟨rfl, by simp [BodyElement.unwrapAttribute, BodyElement.isBlock], by simp [BodyElement.unwrapBlock, BodyElement.isAttribute], ?_, ?_⟩
    · rintro ⟨k', e'⟩; simp [BodyElement.unwrapAttribute, BodyElement.ofAttribute]
    · rintro ⟨t', ls', b'⟩; simp [BodyElement.unwrapBlock, BodyElement.ofBlock]

theorem mem_bodyLeaves {l : Leaf} : ∀ {b : List BodyElement}, l ∈ bodyLeaves b → ∃ el ∈ b, l ∈ elementLeaves el
  | [], h => by cases h
  | e :: es, h => by
    simp only [bodyLeaves, List.mem_append] at h
    rcases h with h | h
    · exact ⟨e, List.mem_cons_self .., h⟩
    · obtain ⟨e', h1, h2⟩ := mem_bodyLeaves h
      exact ⟨e', List.mem_cons_of_mem _ h1, h2⟩

theorem constructedElement_printable {T : FloatTy} {finite : T.F → Prop} (hT : ShowsFloats T finite) {el : BodyElement}
    (h : ConstructedElement U T finite el) : ∀ l ∈ elementLeaves el, LeafPrintable U l := by
  induction h with
  | «attribute» k e hk he =>
    intro l hl
    simp only [BodyElement.ofAttribute, elementLeaves, List.mem_cons] at hl
    rcases hl with rfl | hl
    · exact hk
    · exact constructed_printable U hT he l hl
  | block t ls b ht hls _ ih =>
    intro l hl
    simp only [BodyElement.ofBlock, Block.new, elementLeaves, List.mem_cons, List.mem_append, List.mem_map] at hl
    rcases hl with rfl | ⟨lb, h, rfl⟩ | h
    · exact ht
    · rcases hls lb h with ⟨s, rfl⟩ | ⟨s, hs, rfl⟩
      · trivial
      · exact hs
    · obtain ⟨el, h1, h2⟩ := mem_bodyLeaves h
      exact ih el h1 l h2

/-- C65: a body built in code is what the parser returns (up to ownership) for the text it is written as. -/
theorem c65_constructed_body (T : FloatTy) (finite : T.F → Prop) (hT : ShowsFloats T finite) (b : Body)
    (h : ∀ el ∈ b, ConstructedElement U T finite el) :
    ∃ b', parseStr U (printBody b) = .ok b' ∧ forgetBody b' = forgetBody b := by
  refine c17_print_then_parse U b ?_
  intro l hl
  obtain ⟨el, h1, h2⟩ := mem_bodyLeaves hl
  exact constructedElement_printable U hT (h el h1) l h2

/-- C65: `Block::new_one_line` is a block whose body is the attribute, if any. -/
theorem c65_one_line (t : CowStr) (ls : List BlockLabel) (p : CowStr × Expr) :
    Block.newOneLine t ls none = .new t ls [] ∧ Block.newOneLine t ls (some p) = .new t ls [.ofAttribute p] := ⟨rfl, rfl⟩

/-! ## values -/

theorem isUnmergedList_true : ∀ {vs : List Value}, (∀ v ∈ vs, v.isUnmerged = some true) → Value.isUnmergedList vs = some true
  | [], _ => rfl
  | v :: vs, h => by
    simp [Value.isUnmergedList, h v (List.mem_cons_self ..), isUnmergedList_true fun w hw => h w (List.mem_cons_of_mem _ hw), andPanic]

theorem isUnmergedEntries_true : ∀ {es : List (Key × Value)}, (∀ p ∈ es, p.2.isUnmerged = some true) →
    Value.isUnmergedEntries es = some true
  | [], _ => rfl
  | (k, v) :: es, h => by
    simp [Value.isUnmergedEntries, h (k, v) (List.mem_cons_self ..), isUnmergedEntries_true fun w hw => h w (List.mem_cons_of_mem _ hw), andPanic]

/-- C65: values built from unmerged values are unmerged. -/
theorem c65_values_unmerged (vs : List Value) (es : List (Key × Value)) (ms : List (List (Key × Value))) (ls : List Str)
    (hv : ∀ v ∈ vs, v.isUnmerged = some true) (he : ∀ p ∈ es, p.2.isUnmerged = some true)
    (hm : ∀ es ∈ ms, ∀ p ∈ es, p.2.isUnmerged = some true) :
    (Value.newList vs).isUnmerged = some true ∧ (Value.newSingleMap es).isUnmerged = some true ∧
      (Value.newMap ms).isUnmerged = some true ∧ (Value.newBlock ls es).isUnmerged = some true := by
  refine ⟨isUnmergedList_true hv, ?_, ?_, ?_⟩
  · simp [Value.newSingleMap, Value.isUnmerged, Value.isUnmergedMaps, Value.isUnmergedMap, MapValues.newUnmerged,
      isUnmergedEntries_true he, andPanic]
  · unfold Value.newMap Value.isUnmerged
    induction ms with
    | nil => rfl
    | cons m ms ih =>
      simp only [List.map_cons, Value.isUnmergedMaps, MapValues.newUnmerged, Value.isUnmergedMap,
        isUnmergedEntries_true (hm m (List.mem_cons_self ..))]
      have := ih fun es h => hm es (List.mem_cons_of_mem _ h)
      rw [show Value.isUnmergedMaps (List.map MapValues.newUnmerged ms) = some true from this]
      rfl
  · simp [Value.newBlock, VBlock.newUnmerged, Value.isUnmerged, Value.isUnmergedBlock, Value.isUnmergedBodies, Value.isUnmergedMap,
      MapValues.newUnmerged, isUnmergedEntries_true he, andPanic]

/-- C65: what was put in a value can be taken out again, under the kind it was put in. -/
theorem c65_values_accessors (vs : List Value) (es : List (Key × Value)) (ls : List Str) (m : MapValues) :
    (Value.newList vs).len = some vs.length ∧ (Value.newList vs).variant = .list ∧
      (Value.newSingleMap es) = Value.ofMap (.unmerged es) ∧ (Value.ofMap m).variant = .object ∧ (Value.ofMap m).len = some 1 ∧
      (Value.newBlock ls es).variant = .block ∧ (Value.newBlock ls es).len = some 1 ∧
      Value.ofOptionList none = Value.newList [] ∧ Value.ofOptionList (some vs) = Value.newList vs :=
  ⟨rfl, rfl, rfl, rfl, rfl, rfl, rfl, rfl, rfl⟩

/-- C65: values give back exactly what they were made of, under the kind they were made as: lists their elements, objects one
map for each list of entries, blocks their labels (as text, in order) and entries. -/
theorem c65_values_contents {S : Type} (toStr : S → Str) (vs : List Value) (es : List (Key × Value)) (ms : List (List (Key × Value)))
    (ls : List Str) (bs : List (List S × MapValues)) :
    (Value.newList vs).getList = .ok vs ∧ (∃ m, (Value.newSingleMap es).getMap = .ok [m] ∧ m.iter = .unmerged es) ∧
      (∃ l, (Value.newMap ms).getMap = .ok l ∧ l.map KVP.iter = ms.map .unmerged) ∧
      (∃ b m, (Value.newBlock ls es).getBlock = .ok b ∧ b.iter = .unmerged [(ls, m)] ∧ m.iter = .unmerged es) ∧
      (VBlock.newUnmerged toStr bs).keys = .unmerged (bs.map fun p => p.1.map toStr) ∧
      (VBlock.newUnmerged toStr bs).values = .unmerged (bs.map fun p => p.2) := by
  refine ⟨rfl, ⟨.unmerged es, rfl, rfl⟩, ⟨_, rfl, ?_⟩, ⟨.unmerged [(ls, .unmerged es)], .unmerged es, ?_, rfl, rfl⟩, ?_, ?_⟩
  · induction ms with
    | nil => rfl
    | cons m ms ih => simp only [List.map_cons, ih]; rfl
  · simp [Value.newBlock, Value.getBlock, VBlock.newUnmerged, MapValues.newUnmerged]
  · simp [VBlock.newUnmerged, KVP.keys]
  · simp [VBlock.newUnmerged, KVP.values]

/-- C65: `From<&str>` and the `&str` constructors keep the borrow, the `_owned` ones own; `unwrap` of a key gives the very
string that was put in. -/
theorem c65_ownership (s : Str) (c : CowStr) :
    (Expr.ofStr s = .ofCow (.borrowed s)) ∧ (Expr.ofCow c = .string c) ∧ BlockLabel.ofStr s = .identifier (.borrowed s) ∧
      ObjKey.ofStr s = .ident (.borrowed s) ∧ (Key.newIdentifier s).unwrap = .borrowed s ∧ (Key.newString s).unwrap = .borrowed s ∧
      (Key.newIdentifierOwned s).unwrap = .ownedS s ∧ (Key.newStringOwned s).unwrap = .ownedS s ∧
      (Key.identifier c).unwrap = c ∧ (Key.string c).unwrap = c :=
  ⟨rfl, rfl, rfl, rfl, rfl, rfl, rfl, rfl, rfl, rfl⟩

/-- C65: keys made from a text have that text; string keys and identifier keys with the same text are different. -/
theorem c65_keys (s t : Str) :
    (Key.newIdentifier s).text = s ∧ (Key.newString s).text = s ∧ (Key.newIdentifierOwned s).norm = (Key.newIdentifier s).norm ∧
      (Key.newStringOwned s).norm = (Key.newString s).norm ∧ (Key.newIdentifier s).norm ≠ (Key.newString t).norm ∧
      ((Key.newIdentifier s).norm = (Key.newIdentifier t).norm ↔ s = t) ∧ (∀ k : Key, k.unwrap.str = k.text) := by
  refine ⟨rfl, rfl, rfl, rfl, by simp [Key.newIdentifier, Key.newString, Key.norm], by simp [Key.newIdentifier, Key.norm, CowStr.borrowed], ?_⟩
  intro k
  cases k <;> rfl

/-! ## the theorems are not vacuous -/

/-- `Expression::new_object(vec![("a", Expression::new_tuple(vec![3u8.into(), (-2.5).into(), "x\"y".into(), ().into()]))])` -/
example : ∃ e e', Constructed asciiClass toyHalves (fun x => x ≠ none) e ∧
    printExpr e = "{a = [3, -2.5, \"x\\\"y\", null]}".toList ∧ Expr.parse asciiClass (printExpr e) = .ok e' := by
  have hi : Expr.ofInt ⟨false, 8⟩ true 3 = some (.number ⟨.ownedS ['3'], true, some (.ownedS ['3']), none, none⟩) := by decide +kernel
  have h : Constructed asciiClass toyHalves (fun x => x ≠ none) (.newObject ObjKey.ofStr [(['a'], .newTuple
      [.number ⟨.ownedS ['3'], true, some (.ownedS ['3']), none, none⟩, .ofFloat toyHalves (some (true, 2, true)),
        .ofStr ['x', '"', 'y'], .ofUnit])]) := by
    refine .object _ (fun p hp => ?_) (fun p hp => ?_)
    · rw [List.mem_singleton] at hp
      subst hp
      exact (c14_longest_identifier asciiClass ['a'] ['a'] []).1 (by decide +kernel) |>.2.1
    · rw [List.mem_singleton] at hp
      subst hp
      refine .tuple _ fun e he => ?_
      simp only [List.mem_cons, List.not_mem_nil, or_false] at he
      rcases he with rfl | rfl | rfl | rfl
      · exact .int ⟨false, 8⟩ true 3 _ (by decide) (by decide) (fun h => by cases h) hi
      · exact .float _ (Option.some_ne_none _)
      · exact .str _
      · exact .unit
  obtain ⟨e', h1, _⟩ := c65_constructed_is_parsed asciiClass toyHalves _ toyHalves_shows _ h
  exact ⟨_, e', h, by decide +kernel, h1⟩

/-- C65: `variant_name` names what an expression was made as. -/
theorem c65_variant_name (T : IntTy) (chk : Bool) (k : Int) (e : Expr) (b : Bool) (s : Str) (F : FloatTy) (x : F.F)
    (es : List Expr) (hi : Expr.ofInt T chk k = some e) :
    e.variantName = .number ∧ (Expr.ofFloat F x).variantName = .number ∧ Expr.ofUnit.variantName = .null ∧
    (Expr.ofBool b).variantName = .boolean ∧ (Expr.ofStr s).variantName = .string ∧
    (Expr.newTuple es).variantName = .tuple ∧ Expr.ofVec es = Expr.newTuple es ∧
    (∀ (K : Type) (f : K → ObjKey) (l : List (K × Expr)), (Expr.newObject f l).variantName = .object) := by
  refine ⟨?_, rfl, rfl, rfl, rfl, rfl, rfl, fun _ _ _ => rfl⟩
  unfold Expr.ofInt at hi
  revert hi
  cases Number.fromInt T chk k with
  | none => intro hi; cases hi
  | some n => intro hi; cases hi; rfl

end Verif.Props
