import Verif.Proofs.AnyValue
import Verif.Props.Spelling
import Verif.Props.Write
import Verif.Props.Laid
import Verif.Props.Failure
/-!
# C91: self-describing values

A self-describing value (`serde_json::Value`, `toml::Value`, ...) asks for `deserialize_any` and keeps what it is given.
`PlainValue` (Spec/PlainData.lean): what an expression is, as it is.
-/
set_option autoImplicit false

namespace Verif
open Spec
variable {P : F64Parse} {I : F64OfInt}

/-- The two types that ask for nothing in particular. -/
def AsksNothing (t : Ty) : Prop := t = .any ∨ t = .ignored

theorem AsksNothing.not_newtype {t : Ty} (h : AsksNothing t) : ∀ t', t ≠ .newtype t' := by rcases h with rfl | rfl <;> simp
theorem AsksNothing.not_seq {t : Ty} (h : AsksNothing t) : ∀ t', t ≠ .seq t' := by rcases h with rfl | rfl <;> simp
theorem AsksNothing.not_tuple {t : Ty} (h : AsksNothing t) : ∀ ts, ¬ (t = .tuple ts ∨ t = .tupleStruct ts) := by
  rcases h with rfl | rfl <;> simp

mutual
theorem reads_swap {u : Ty} (hu : AsksNothing u) : ∀ {t : Ty} {n : Node} {v : DVal}, Reads P I t n v → AsksNothing t → ∃ w, Reads P I u n w
  | _, _, _, .unit, h => by rcases h with h | h <;> cases h
  | _, _, _, .unitStruct, h => by rcases h with h | h <;> cases h
  | _, _, _, .bool _, h => by rcases h with h | h <;> cases h
  | _, _, _, .int .., h => by rcases h with h | h <;> cases h
  | _, _, _, .float .., h => by rcases h with h | h <;> cases h
  | _, _, _, .floatOfInt .., h => by rcases h with h | h <;> cases h
  | _, _, _, .float32 .., h => by rcases h with h | h <;> cases h
  | _, _, _, .float32OfInt .., h => by rcases h with h | h <;> cases h
  | _, _, _, .string _, h => by rcases h with h | h <;> cases h
  | _, _, _, .str _, h => by rcases h with h | h <;> cases h
  | _, _, _, .char .., h => by rcases h with h | h <;> cases h
  | _, _, _, .none _, h => by rcases h with h | h <;> cases h
  | _, _, _, .some .., h => by rcases h with h | h <;> cases h
  | _, _, _, .newtype .., h => by rcases h with h | h <;> cases h
  | _, _, _, .someBlock .., h => by rcases h with h | h <;> cases h
  | _, _, _, .noBlock .., h => by rcases h with h | h <;> cases h
  | _, _, _, .keyString _, h => by rcases h with h | h <;> cases h
  | _, _, _, .keyChar .., h => by rcases h with h | h <;> cases h
  | _, _, _, .keyEnum .., h => by rcases h with h | h <;> cases h
  | _, _, _, .ignoredNull, _ => by rcases hu with rfl | rfl <;> first | exact ⟨_, .anyNull⟩ | exact ⟨_, .ignoredNull⟩
  | _, _, _, .ignoredBool b, _ => by rcases hu with rfl | rfl <;> first | exact ⟨_, .anyBool b⟩ | exact ⟨_, .ignoredBool b⟩
  | _, _, _, .ignoredInt n k h, _ => by rcases hu with rfl | rfl <;> first | exact ⟨_, .anyInt n k h⟩ | exact ⟨_, .ignoredInt n k h⟩
  | _, _, _, .ignoredFloat n x h, _ => by rcases hu with rfl | rfl <;> first | exact ⟨_, .anyFloat n x h⟩ | exact ⟨_, .ignoredFloat n x h⟩
  | _, _, _, .ignoredString s, _ => by rcases hu with rfl | rfl <;> first | exact ⟨_, .anyString s⟩ | exact ⟨_, .ignoredString s⟩
  | _, _, _, .ignoredKey s, _ => by rcases hu with rfl | rfl <;> first | exact ⟨_, .anyKey s⟩ | exact ⟨_, .ignoredKey s⟩
  | _, _, _, .anyNull, _ => by rcases hu with rfl | rfl <;> first | exact ⟨_, .anyNull⟩ | exact ⟨_, .ignoredNull⟩
  | _, _, _, .anyBool b, _ => by rcases hu with rfl | rfl <;> first | exact ⟨_, .anyBool b⟩ | exact ⟨_, .ignoredBool b⟩
  | _, _, _, .anyInt n k h, _ => by rcases hu with rfl | rfl <;> first | exact ⟨_, .anyInt n k h⟩ | exact ⟨_, .ignoredInt n k h⟩
  | _, _, _, .anyFloat n x h, _ => by rcases hu with rfl | rfl <;> first | exact ⟨_, .anyFloat n x h⟩ | exact ⟨_, .ignoredFloat n x h⟩
  | _, _, _, .anyString s, _ => by rcases hu with rfl | rfl <;> first | exact ⟨_, .anyString s⟩ | exact ⟨_, .ignoredString s⟩
  | _, _, _, .anyKey s, _ => by rcases hu with rfl | rfl <;> first | exact ⟨_, .anyKey s⟩ | exact ⟨_, .ignoredKey s⟩
  | _, _, _, .tuple t es v _ _ h, ht => by
    obtain ⟨w, hw⟩ := readsSeq_swap hu h ht
    exact ⟨w, .tuple u es w (fun ts h => absurd h (hu.not_tuple ts)) hu.not_newtype hw⟩
  | _, _, _, .object t o ns v ho h, ht => by
    obtain ⟨w, hw⟩ := readsMap_swap hu h ht
    exact ⟨w, .object u o ns w ho hw⟩
  | _, _, _, .body t b ns v hb h, ht => by
    obtain ⟨w, hw⟩ := readsMap_swap hu h ht
    exact ⟨w, .body u b ns w hb hw⟩
  | _, _, _, .block t c b v hl _ h, ht => by
    obtain ⟨w, hw⟩ := reads_swap hu h ht
    exact ⟨w, .block u c b w hl hu.not_seq hw⟩
  | _, _, _, .blocks t c bs v hl hn _ h, ht => by
    obtain ⟨w, hw⟩ := readsSeq_swap hu h ht
    have hn' : bs.length ≠ 1 := by
      rcases hn with hn | ⟨t', rfl⟩
      · exact hn
      · exact absurd rfl (ht.not_seq t')
    exact ⟨w, .blocks u c bs w hl (.inl hn') (fun h => by obtain ⟨⟨t', h⟩, -⟩ := h; exact hu.not_seq t' h) hw⟩

theorem readsSeq_swap {u : Ty} (hu : AsksNothing u) : ∀ {t : Ty} {ns : List Node} {v : DVal}, ReadsSeq P I t ns v → AsksNothing t →
    ∃ w, ReadsSeq P I u ns w
  | _, _, _, .seq .., h => by rcases h with h | h <;> cases h
  | _, _, _, .tuple .., h => by rcases h with h | h <;> cases h
  | _, _, _, .tupleStruct .., h => by rcases h with h | h <;> cases h
  | _, _, _, .struct .., h => by rcases h with h | h <;> cases h
  | _, _, _, .newtype .., h => by rcases h with h | h <;> cases h
  | _, _, _, .ignored ns vs h, ht => by
    obtain ⟨ws, hw⟩ := readsAll_swap hu h ht
    rcases hu with rfl | rfl <;> first | exact ⟨_, .any ns ws hw⟩ | exact ⟨_, .ignored ns ws hw⟩
  | _, _, _, .any ns vs h, ht => by
    obtain ⟨ws, hw⟩ := readsAll_swap hu h ht
    rcases hu with rfl | rfl <;> first | exact ⟨_, .any ns ws hw⟩ | exact ⟨_, .ignored ns ws hw⟩

theorem readsMap_swap {u : Ty} (hu : AsksNothing u) : ∀ {t : Ty} {ns : List (Str × Node)} {v : DVal}, ReadsMap P I t ns v → AsksNothing t →
    ∃ w, ReadsMap P I u ns w
  | _, _, _, .map .., h => by rcases h with h | h <;> cases h
  | _, _, _, .struct .., h => by rcases h with h | h <;> cases h
  | _, _, _, .ignored ns vs h, ht => by
    obtain ⟨ws, hw⟩ := readsEach_swap hu h ht
    rcases hu with rfl | rfl <;> first | exact ⟨_, .any ns ws hw⟩ | exact ⟨_, .ignored ns ws hw⟩
  | _, _, _, .any ns vs h, ht => by
    obtain ⟨ws, hw⟩ := readsEach_swap hu h ht
    rcases hu with rfl | rfl <;> first | exact ⟨_, .any ns ws hw⟩ | exact ⟨_, .ignored ns ws hw⟩

theorem readsAll_swap {u : Ty} (hu : AsksNothing u) : ∀ {t : Ty} {ns : List Node} {vs : List DVal}, ReadsAll P I t ns vs → AsksNothing t →
    ∃ ws, ReadsAll P I u ns ws
  | _, _, _, .nil _, _ => ⟨[], .nil u⟩
  | _, _, _, .cons t n v ns vs h h', ht => by
    obtain ⟨w, hw⟩ := reads_swap hu h ht
    obtain ⟨ws, hws⟩ := readsAll_swap hu h' ht
    exact ⟨w :: ws, .cons u n w ns ws hw hws⟩

theorem readsEach_swap {u : Ty} (hu : AsksNothing u) : ∀ {t : Ty} {ns : List (Str × Node)} {vs : List (Str × DVal)},
    ReadsEach P I t ns vs → AsksNothing t → ∃ ws, ReadsEach P I u ns ws
  | _, _, _, .nil _, _ => ⟨[], .nil u⟩
  | _, _, _, .cons t k n v ns vs h h', ht => by
    obtain ⟨w, hw⟩ := reads_swap hu h ht
    obtain ⟨ws, hws⟩ := readsEach_swap hu h' ht
    exact ⟨(k, w) :: ws, .cons u k n w ns ws hw hws⟩
end

end Verif

namespace Verif.Props
open Verif Spec

section
variable (P : F64Parse) (I : F64OfInt) (ord ord' : HashOrder)

/-- C91: an expression read as a self-describing value is exactly what it is. -/
theorem c91_expression_value (e : Expr) (v : DVal) : deserialize P I ord .any (.expr e) = .ok v ↔ PlainValue P e v := by
  constructor
  · intro h
    exact reads_any_plain _ e v (Nat.lt_succ_self _) (c68_deserialized_is_read P I ord .any .any _ v h)
  · intro h
    obtain ⟨v', h1, -⟩ := c68_read_is_deserialized P I ord .any .any _ v (plain_reads_any h)
    have h2 := reads_any_plain _ e v' (Nat.lt_succ_self _) (c68_deserialized_is_read P I ord .any .any _ v' h1)
    rw [plainValue_one h h2]; exact h1

/-- C91: an expression can be read as a self-describing value exactly if it is plain data: all numbers in it have a value, and the
keys of every object are different identifiers. -/
theorem c91_readable (e : Expr) : (∃ v, deserialize P I ord .any (.expr e) = .ok v) ↔ PlainData P e := by
  simp only [c91_expression_value, plain_iff]

/-- C91: anything that can be skipped (`IgnoredAny`) can be read as a self-describing value, and conversely. -/
theorem c91_skipped (n : Node) : (∃ v, deserialize P I ord .any n = .ok v) ↔ ∃ v, deserialize P I ord .ignored n = .ok v := by
  have key : ∀ t u : Ty, AsksNothing t → AsksNothing u → ProperTy t → ProperTy u → (∃ v, deserialize P I ord t n = .ok v) →
      ∃ v, deserialize P I ord u n = .ok v := by
    rintro t u ht hu pt pu ⟨v, h⟩
    obtain ⟨w, hw⟩ := reads_swap hu (c68_deserialized_is_read P I ord t pt n v h) ht
    obtain ⟨v', h', -⟩ := c68_read_is_deserialized P I ord u pu n w hw
    exact ⟨v', h'⟩
  exact ⟨key _ _ (.inl rfl) (.inr rfl) .any .ignored, key _ _ (.inr rfl) (.inl rfl) .ignored .any⟩

/-- C91: a body is read as a map of self-describing values, in every respect (value, failure, panic). -/
theorem c91_body (b : Body) : deserialize P I ord .any (.body b) = deserialize P I ord (.map .any) (.body b) := by
  rw [deserialize_eq, deserialize_eq]; rfl

/-- C91: a single block is read as its body, several blocks of a type as a list of bodies; blocks with labels panic. -/
theorem c91_blocks (bs : List Body) :
    (∀ b, bs = [b] → deserialize P I ord .any (.block (BlockBody.fromIter (bs.map fun b => ([], b)))) = deserialize P I ord .any (.body b)) ∧
    (bs.length ≠ 1 → deserialize P I ord .any (.block (BlockBody.fromIter (bs.map fun b => ([], b)))) =
      deserialize P I ord (.seq .any) (.block (BlockBody.fromIter (bs.map fun b => ([], b))))) ∧
    ∀ r : List (List BlockLabel × Body), (∃ p ∈ r, p.1 ≠ []) → deserialize P I ord .any (.block (BlockBody.fromIter r)) = .panic := by
  have h1 := fun b => (c50_unlabelled ord bs .any (by simp) (by simp)).1 b
  have h2 := (c50_unlabelled ord bs .any (by simp) (by simp)).2
  refine ⟨fun b hb => ?_, fun hl => ?_, fun r hr => ?_⟩
  · rw [deserialize_eq, deserialize_eq]
    show ((BlockBody.fromIter _).deserialize ord .any).bind _ = _
    rw [h1 b hb]; rfl
  · rw [deserialize_eq, deserialize_eq P I ord (.seq .any)]
    show ((BlockBody.fromIter _).deserialize ord .any).bind _ = ((BlockBody.fromIter _).deserialize ord .seq).bind _
    rw [h2 hl, fromIter_plain, c50_seq]; rfl
  · rw [deserialize_eq]
    show ((BlockBody.fromIter _).deserialize ord .any).bind _ = _
    rw [(c50_labelled (built_fromIter r) ord .any (by simp)).2 hr]; rfl

/-- C91: the self-describing value of an expression determines how it is read as any type without `&str`: expressions with the same
value, up to the order of map entries, are read alike. -/
theorem c91_determines (e e' : Expr) (v v' : DVal) (h : deserialize P I ord .any (.expr e) = .ok v)
    (h' : deserialize P I ord .any (.expr e') = .ok v') (hs : SameVal v v') (t : Ty) (ht : ProperTy t) (hf : StrFree t) (w : DVal)
    (hw : deserialize P I ord t (.expr e) = .ok w) : ∃ w', deserialize P I ord' t (.expr e') = .ok w' ∧ SameVal w w' :=
  c69_alike P I ord ord' false t ht (.inr hf) _ _
    (plain_alike ((c91_expression_value P I ord e v).1 h) ((c91_expression_value P I ord e' v').1 h') hs) w hw

/-- C91: and conversely: the self-describing value is one of these types. -/
theorem c91_determined (e e' : Expr) (v v' : DVal) (h : deserialize P I ord .any (.expr e) = .ok v)
    (h' : deserialize P I ord .any (.expr e') = .ok v') :
    SameVal v v' ↔ ∀ t, ProperTy t → StrFree t → ∀ w, deserialize P I ord t (.expr e) = .ok w →
      ∃ w', deserialize P I ord t (.expr e') = .ok w' ∧ SameVal w w' := by
  refine ⟨fun hs t ht hf w hw => c91_determines P I ord ord e e' v v' h h' hs t ht hf w hw, fun hall => ?_⟩
  obtain ⟨w', h1, h2⟩ := hall .any .any .any v h
  rw [h'] at h1; cases h1; exact h2

/-- C91: so the value of an expression in a document can be replaced by any other expression with the same self-describing value,
and the document is read alike. -/
theorem c91_replace (e e' : Expr) (v v' : DVal) (h : deserialize P I ord .any (.expr e) = .ok v)
    (h' : deserialize P I ord .any (.expr e') = .ok v') (hs : SameVal v v') (p : ValuePlace) (t : Ty) (ht : ProperTy t)
    (hf : StrFree t) (w : DVal) (hw : deserialize P I ord t (.body (p.fill e)) = .ok w) :
    ∃ w', deserialize P I ord' t (.body (p.fill e')) = .ok w' ∧ SameVal w w' :=
  c69_replace P I ord ord' false t ht (.inr hf) p _ _
    (plain_alike ((c91_expression_value P I ord e v).1 h) ((c91_expression_value P I ord e' v').1 h') hs) w hw

/-- C91: converting to a self-describing value and back loses nothing: the expression written from the value is read like the
original, as any type without `&str`. -/
theorem c91_there_and_back (U : CharClass) (F : FloatWriter) (hF : WritesFloats P I F) (s : Str) (e : Expr)
    (hp : Expr.parse U s = .ok e) (v : DVal) (h : deserialize P I ord .any (.expr e) = .ok v) (t : Ty) (ht : ProperTy t)
    (hf : StrFree t) (w : DVal) :
    (deserialize P I ord t (.expr e) = .ok w → ∃ w', deserialize P I ord' t (.expr (toExpr F v)) = .ok w' ∧ SameVal w w') ∧
    (deserialize P I ord t (.expr (toExpr F v)) = .ok w → ∃ w', deserialize P I ord' t (.expr e) = .ok w' ∧ SameVal w w') := by
  have hpr : NodePrintable U (.expr e) := isExpr_printable ((exprParse_iff U s e).1 hp)
  have hr := c68_deserialized_is_read P I ord .any .any _ v h
  have hx : Expressible U P I .any v := reads_expressible hr hpr ⟨.any, .any⟩
  have h1 := reads_any_plain _ _ v (Nat.lt_succ_self _) (expressible_reads hF hx .any)
  have h2 := (c91_expression_value P I ord e v).1 h
  exact ⟨c69_alike P I ord ord' false t ht (.inr hf) _ _ (plain_alike h2 h1 (.refl v)) w,
    c69_alike P I ord ord' false t ht (.inr hf) _ _ (plain_alike h1 h2 (.refl v)) w⟩

/-- C91: blocks are told apart from expressions: the empty block `c {}` and the attribute `c = {}` give the same self-describing
value, but only the block can be read as a list. -/
theorem c91_not_for_blocks :
    (deserialize P I ord0 .any (.body [.block (.borrowed "c".toList) [] []]) = .ok (.entries [("c".toList, .entries [])]) ∧
      deserialize P I ord0 .any (.body [.attribute (.borrowed "c".toList) (.object [])]) =
        .ok (.entries [("c".toList, .entries [])])) ∧
    deserialize P I ord0 (.map (.seq .any)) (.body [.block (.borrowed "c".toList) [] []]) =
      .ok (.entries [("c".toList, .seq [.entries []])]) ∧
    ∀ v, deserialize P I ord0 (.map (.seq .any)) (.body [.attribute (.borrowed "c".toList) (.object [])]) ≠ .ok v := by
  refine ⟨⟨?_, ?_⟩, ?_, ?_⟩
  · rw [deserialize, deN_fuel P I ord0 _ _ _ _ 100000 (Nat.lt_succ_self _) (Nat.lt_succ_self _)]
    · rfl
    · decide +kernel
  · rw [deserialize, deN_fuel P I ord0 _ _ _ _ 100000 (Nat.lt_succ_self _) (Nat.lt_succ_self _)]
    · rfl
    · decide +kernel
  · rw [deserialize, deN_fuel P I ord0 _ _ _ _ 100000 (Nat.lt_succ_self _) (Nat.lt_succ_self _)]
    · rfl
    · decide +kernel
  · intro v
    rw [deserialize, deN_fuel P I ord0 _ _ _ _ 100000 (Nat.lt_succ_self _) (Nat.lt_succ_self _)]
    · intro h; cases h
    · decide +kernel

end

/-! ## samples -/

/-- `{ k = [null, true], m = "x" }` -/
abbrev plainSample : Expr := .object [(.ident (.borrowed "k".toList), .tuple [.null, .boolean true]),
  (.ident (.borrowed "m".toList), .string (.borrowed "x".toList))]

theorem plainSample_value (P : F64Parse) : PlainValue P plainSample
    (.entries [("k".toList, .seq [.unit, .bool true]), ("m".toList, .string "x".toList)]) := by
  refine .object [(.borrowed "k".toList, .tuple [.null, .boolean true]), (.borrowed "m".toList, .string (.borrowed "x".toList))] _
    ?_ rfl ?_
  · unfold Distinct; decide
  · simp only [List.zip_cons_cons, List.zip_nil_left, List.mem_cons, List.not_mem_nil, or_false, forall_eq_or_imp, forall_eq]
    refine ⟨.tuple _ _ rfl ?_, .string _⟩
    simp only [List.zip_cons_cons, List.zip_nil_left, List.mem_cons, List.not_mem_nil, or_false, forall_eq_or_imp, forall_eq]
    exact ⟨.null, .boolean true⟩

example (P : F64Parse) (I : F64OfInt) (ord : HashOrder) : deserialize P I ord .any (.expr plainSample) =
    .ok (.entries [("k".toList, .seq [.unit, .bool true]), ("m".toList, .string "x".toList)]) :=
  (c91_expression_value P I ord _ _).2 (plainSample_value P)

/-- an object with an expression as a key is not plain data: it cannot be read -/
example (P : F64Parse) (I : F64OfInt) (ord : HashOrder) :
    ¬ ∃ v, deserialize P I ord .any (.expr (.object [(.expr (.borrowed "\"k\"".toList), .null)])) = .ok v := by
  rw [c91_readable]
  intro h
  generalize he : Expr.object _ = e at h
  cases h with
  | object l _ _ =>
    simp only [Expr.object.injEq] at he
    match l, he with
    | _ :: _, hl => simp at hl
  | _ => cases he

/-- the sample in another order is read alike, as any type -/
example (P : F64Parse) (I : F64OfInt) (ord : HashOrder) (e' : Expr) (v' : DVal)
    (h : deserialize P I ord .any (.expr e') = .ok v')
    (hs : SameVal (.entries [("k".toList, .seq [.unit, .bool true]), ("m".toList, .string "x".toList)]) v') (w : DVal)
    (hw : deserialize P I ord (.map .ignored) (.expr plainSample) = .ok w) :
    ∃ w', deserialize P I ord (.map .ignored) (.expr e') = .ok w' ∧ SameVal w w' :=
  c91_determines P I ord ord _ e' _ v' ((c91_expression_value P I ord _ _).2 (plainSample_value P)) h hs _ (.map _ .ignored)
    (.map _ .ignored) w hw

end Verif.Props
