import Verif.Spec.Write
import Verif.Props.Alike
import Verif.Props.Print
/-! # Writing and reading back typed values -/
set_option autoImplicit false

namespace Verif
open Spec

variable {U : CharClass} {P : F64Parse} {I : F64OfInt} {F : FloatWriter}

theorem toExprs_eq (vs : List DVal) : toExprs F vs = vs.map (toExpr F) := by
  induction vs with
  | nil => rfl
  | cons v vs ih => rw [toExprs, ih]; rfl

theorem toObject_eq (es : List (Str × DVal)) :
    toObject F es = es.map fun p => (.ident (.borrowed p.1), toExpr F p.2) := by
  induction es with
  | nil => rfl
  | cons p es ih => obtain ⟨k, v⟩ := p; rw [toObject, ih]; rfl

/-! ## integers -/

theorem intNumber_isNumber (k : Int) : IsNumber (decimalInt k) (intNumber k) := by
  have hd := decimal_spec k.natAbs
  unfold intNumber decimalInt
  by_cases h : k < 0
  · have hn := IsNumber.mk ['-'] (decimal k.natAbs) [] false _ _ _ .minus (.int _ hd.1.1) .none
    simp only [List.append_nil] at hn
    rw [if_pos h]
    have hk : decide (0 ≤ k) = false := by simp; omega
    rw [hk]; exact hn
  · have hn := IsNumber.mk [] (decimal k.natAbs) [] true _ _ _ .none (.int _ hd.1.1) .none
    simp only [List.append_nil, List.nil_append] at hn
    rw [if_neg h]
    have hk : decide (0 ≤ k) = true := by simp; omega
    rw [hk]; exact hn

theorem intNumber_isInteger {k : Int} (h1 : -2 ^ 63 ≤ k) (h2 : k < 2 ^ 63) : IsInteger (intNumber k) k := by
  refine ⟨rfl, ?_⟩
  unfold Number.asInt
  show parseInt _ (decimalInt k) = some k
  rw [parseInt_iff]
  refine ⟨decimalInt_spec k, inRange_iff.2 ⟨?_, ?_⟩, .inl rfl⟩
  · show -(2 ^ (64 - 1) : Nat) ≤ k
    omega
  · show k ≤ IntTy.max ⟨true, 64⟩
    have : IntTy.max ⟨true, 64⟩ = 2 ^ 63 - 1 := by decide
    omega

theorem isInteger_range {n : Number} {k : Int} (h : IsInteger n k) : -2 ^ 63 ≤ k ∧ k < 2 ^ 63 := by
  have h := h.2
  unfold Number.asInt at h
  rw [parseInt_iff] at h
  have := inRange_iff.1 h.2.1
  have h1 : IntTy.max ⟨true, 64⟩ = 2 ^ 63 - 1 := by decide
  have h2 : IntTy.min ⟨true, 64⟩ = -2 ^ 63 := by decide
  omega

/-! ## what is written can be read -/

theorem toExpr_ne_null {t : Ty} {v : DVal} (h : Expressible U P I t v) (h1 : v ≠ .unit) (h2 : v ≠ .none) :
    toExpr F v ≠ .null := by
  induction h with
  | unit => exact absurd rfl h1
  | unitStruct => exact absurd rfl h1
  | anyUnit => exact absurd rfl h1
  | none => exact absurd rfl h2
  | some t v h3 h4 _ ih => simp only [toExpr]; exact ih h3 h4
  | newtype t v _ ih => exact ih h1 h2
  | _ => simp [toExpr]

theorem readsAll_of {t : Ty} {f : DVal → Expr} : ∀ {vs : List DVal}, (∀ v ∈ vs, Reads P I t (.expr (f v)) v) →
    ReadsAll P I t ((vs.map f).map .expr) vs
  | [], _ => .nil _
  | v :: vs, h => .cons _ _ _ _ _ (h v (List.mem_cons_self ..)) (readsAll_of fun w hw => h w (List.mem_cons_of_mem _ hw))

theorem readsFields_of {f : DVal → Expr} : ∀ {ts : List Ty} {vs : List DVal}, vs.length = ts.length →
    (∀ p ∈ ts.zip vs, Reads P I p.1 (.expr (f p.2)) p.2) → ReadsFields P I ts ((vs.map f).map .expr) vs
  | [], [], _, _ => .nil
  | t :: ts, v :: vs, hl, h => .cons _ _ _ _ _ _ (h (t, v) (by simp))
      (readsFields_of (by simpa using hl) fun p hp => h p (by rw [List.zip_cons_cons]; exact List.mem_cons_of_mem _ hp))

theorem readsEach_of {t : Ty} {f : DVal → Expr} : ∀ {es : List (Str × DVal)},
    (∀ p ∈ es, Reads P I t (.expr (f p.2)) p.2) → ReadsEach P I t (es.map fun p => (p.1, .expr (f p.2))) es
  | [], _ => .nil _
  | (k, v) :: es, h => .cons _ _ _ _ _ _ (h (k, v) (List.mem_cons_self ..))
      (readsEach_of fun w hw => h w (List.mem_cons_of_mem _ hw))

theorem readsStruct_of {f : DVal → Expr} {ns : List (Str × Node)} : ∀ {fs : List (Str × Ty)} {vs : List DVal},
    vs.length = fs.length → (∀ p ∈ fs.zip vs, Reads P I p.1.2 (.expr (f p.2)) p.2) →
    (∀ p ∈ (fs.map Prod.fst).zip vs, (p.1, Node.expr (f p.2)) ∈ ns) → ReadsStruct P I fs ns ((fs.map Prod.fst).zip vs)
  | [], [], _, _, _ => .nil _
  | (k, t) :: fs, v :: vs, hl, h, hm => .present _ _ _ _ _ _ _ (hm (k, v) (by simp)) (h ((k, t), v) (by simp))
      (readsStruct_of (by simpa using hl) (fun p hp => h p (by rw [List.zip_cons_cons]; exact List.mem_cons_of_mem _ hp))
        fun p hp => hm p (by rw [List.map_cons, List.zip_cons_cons]; exact List.mem_cons_of_mem _ hp))

theorem readsExtra_declared {fs : List (Str × Ty)} : ∀ {ns : List (Str × Node)}, (∀ p ∈ ns, p.1 ∈ fs.map Prod.fst) →
    ReadsExtra P I fs ns
  | [], _ => .nil _
  | (k, n) :: ns, h => .declared _ _ _ _ (h (k, n) (List.mem_cons_self ..))
      (readsExtra_declared fun p hp => h p (List.mem_cons_of_mem _ hp))

/-- The entries as nodes. -/
def entryNodes (F : FloatWriter) (es : List (Str × DVal)) : List (Str × Node) :=
  es.map fun p => (p.1, .expr (toExpr F p.2))

theorem objectEntries_of {es : List (Str × DVal)} (h : (es.map Prod.fst).Nodup) :
    ObjectEntries (toObject F es) (entryNodes F es) := by
  refine ⟨es.map fun p => (.borrowed p.1, toExpr F p.2), ?_, ?_, ?_⟩
  · rw [toObject_eq, List.map_map]; rfl
  · unfold Distinct; rw [List.map_map]; exact h
  · unfold entryNodes; rw [List.map_map]; rfl

theorem attrs_toBody (es : List (Str × DVal)) :
    attrs (toBody F (.entries es)) = es.map fun p => (.borrowed p.1, toExpr F p.2) := by
  unfold attrs toBody
  induction es with
  | nil => rfl
  | cons p es ih => simpa using ih

theorem blocks_toBody (v : DVal) : blocks (toBody F v) = [] := by
  unfold blocks toBody
  cases v with
  | entries es =>
    show List.filterMap _ (es.map _) = []
    induction es with
    | nil => rfl
    | cons p es ih => simpa using ih
  | _ => rfl

theorem lastRun_nil {t : Str} {run : List Block} (h : LastRun t [] run) : False := by
  obtain ⟨pre, post, h1, h2, -⟩ := h
  have := congrArg List.length h1
  cases run with
  | nil => exact h2 rfl
  | cons => simp at this

theorem bodyEntries_of {es : List (Str × DVal)} (h : (es.map Prod.fst).Nodup) :
    BodyEntries (toBody F (.entries es)) (entryNodes F es) := by
  refine ⟨?_, ?_, ?_, ?_⟩
  · rw [attrs_toBody]; unfold Distinct; rw [List.map_map]; exact h
  · rintro ⟨p, -, q, hq, -⟩
    rw [blocks_toBody] at hq; cases hq
  · unfold entryNodes; rw [List.map_map]; exact h
  · intro k n
    unfold EntryOf
    rw [attrs_toBody, blocks_toBody]
    unfold entryNodes
    constructor
    · intro hm
      obtain ⟨p, hp, he⟩ := List.mem_map.1 hm
      cases he
      exact .inl ⟨.borrowed p.1, _, List.mem_map.2 ⟨p, hp, rfl⟩, rfl, rfl⟩
    · rintro (⟨k', e, hm, rfl, rfl⟩ | ⟨run, hr, -⟩)
      · obtain ⟨p, hp, he⟩ := List.mem_map.1 hm
        cases he
        exact List.mem_map.2 ⟨p, hp, rfl⟩
      · exfalso
        exact lastRun_nil hr

theorem struct_map_fst {fs : List (Str × Ty)} {vs : List DVal} (h : vs.length = fs.length) :
    ((fs.map Prod.fst).zip vs).map Prod.fst = fs.map Prod.fst := by
  rw [List.map_fst_zip]; simp [h]

theorem readsMap_struct {fs : List (Str × Ty)} {vs : List DVal} (hl : vs.length = fs.length)
    (h : ∀ p ∈ fs.zip vs, Reads P I p.1.2 (.expr (toExpr F p.2)) p.2) :
    ReadsMap P I (.struct fs) (entryNodes F ((fs.map Prod.fst).zip vs)) (.entries ((fs.map Prod.fst).zip vs)) := by
  refine .struct _ _ _ (readsStruct_of (f := toExpr F) hl h fun p hp => List.mem_map.2 ⟨p, hp, rfl⟩) (readsExtra_declared ?_)
  intro p hp
  obtain ⟨q, hq, rfl⟩ := List.mem_map.1 hp
  rw [← struct_map_fst hl]
  exact List.mem_map.2 ⟨q, hq, rfl⟩

theorem mem_zip_fields {fs : List (Str × Ty)} {vs : List DVal} {p : (Str × Ty) × DVal} (h : p ∈ fs.zip vs) : p.1 ∈ fs :=
  (List.of_mem_zip (a := p.1) (b := p.2) h).1

theorem expressible_reads (hF : WritesFloats P I F) {t : Ty} {v : DVal} (h : Expressible U P I t v) (hp : ProperTy t) :
    Reads P I t (.expr (toExpr F v)) v := by
  induction h with
  | unit => exact .unit
  | unitStruct => exact .unitStruct
  | bool b => exact .bool b
  | int T k h1 h2 h3 h4 => exact .int T _ k (intNumber_isInteger h3 h4) h1 h2
  | float x hx =>
    rcases (hF.1 x hx).2 with h | ⟨k, h, rfl⟩
    · exact .float _ _ h
    · exact .floatOfInt _ _ h
  | float32 x hx =>
    simp only [toExpr]
    generalize hF32 : F.f32 x = n
    have hg := (hF.2.2 x hx).2
    rw [hF32] at hg
    rcases hg with ⟨y, h, rfl⟩ | ⟨k, h, rfl⟩
    · exact .float32 _ _ h
    · exact .float32OfInt _ _ h
  | string s => exact .string (.borrowed s)
  | char c => exact .char (.borrowed [c]) c rfl
  | none t => exact .none t
  | some t v h1 h2 h ih =>
    cases hp with
    | option _ hp => simp only [toExpr]; exact .some t _ v (toExpr_ne_null h h1 h2) (ih hp)
  | seq t vs _ ih =>
    cases hp with
    | seq _ hp =>
      refine .tuple _ _ _ (by simp) (by simp) (.seq _ _ _ ?_)
      rw [toExprs_eq]; exact readsAll_of fun v hv => ih v hv hp
  | tuple ts vs hl _ ih =>
    cases hp with
    | tuple _ hp =>
      refine .tuple _ _ _ (by rintro ts' (h | h) <;> cases h; rw [toExprs_eq]; simpa using hl) (by simp) ?_
      have := ReadsSeq.tuple (P := P) (I := I) ts _ [] vs
        (readsFields_of (f := toExpr F) hl fun p hq => ih p hq (hp _ (List.of_mem_zip (a := p.1) (b := p.2) hq).1))
      rw [List.append_nil] at this
      rw [toExprs_eq]; exact this
  | tupleStruct ts vs hl _ ih =>
    cases hp with
    | tupleStruct _ hp =>
      refine .tuple _ _ _ (by rintro ts' (h | h) <;> cases h; rw [toExprs_eq]; simpa using hl) (by simp) ?_
      have := ReadsSeq.tupleStruct (P := P) (I := I) ts _ [] vs
        (readsFields_of (f := toExpr F) hl fun p hq => ih p hq (hp _ (List.of_mem_zip (a := p.1) (b := p.2) hq).1))
      rw [List.append_nil] at this
      rw [toExprs_eq]; exact this
  | map t es hn _ _ ih =>
    cases hp with
    | map _ hp => exact .object _ _ _ _ (objectEntries_of hn) (.map _ _ _ (readsEach_of fun p hq => ih p hq hp))
  | struct fs vs _ hl _ ih =>
    cases hp with
    | struct _ hd hp =>
      exact .object _ _ _ _ (objectEntries_of (by rw [struct_map_fst hl]; exact hd))
        (readsMap_struct hl fun p hq => ih p hq (hp _ (mem_zip_fields hq)))
  | newtype t v _ ih =>
    cases hp with
    | newtype _ hp => exact .newtype t _ v (ih hp)
  | ignored => exact .ignoredBool true
  | anyUnit => exact .anyNull
  | anyBool b => exact .anyBool b
  | anyInt k h3 h4 => exact .anyInt _ k (intNumber_isInteger h3 h4)
  | anyFloat x hx => exact .anyFloat _ _ (hF.2.1 x hx)
  | anyString s => exact .anyString (.borrowed s)
  | anySeq vs _ ih =>
    refine .tuple _ _ _ (by simp) (by simp) (.any _ _ ?_)
    rw [toExprs_eq]; exact readsAll_of fun v hv => ih v hv .any
  | anyMap es hn _ _ ih => exact .object _ _ _ _ (objectEntries_of hn) (.any _ _ (readsEach_of fun p hq => ih p hq .any))
  | bytes u vs h =>
    refine .tuple _ _ _ (by simp) (by simp) (.bytes _ _ _ ?_)
    rw [toExprs_eq]
    refine readsAll_of fun v hv => ?_
    obtain ⟨k, rfl, h1, h2⟩ := h v hv
    exact .int _ _ k (intNumber_isInteger (by omega) (by omega)) (u8_range.2 ⟨h1, h2⟩).1 (u8_range.2 ⟨h1, h2⟩).2

/-! ## what is written can be printed -/

theorem tupleLeaves_mem {es : List Expr} {l : Leaf} : l ∈ tupleLeaves es ↔ ∃ e ∈ es, l ∈ exprLeaves e := by
  induction es with
  | nil => simp [tupleLeaves]
  | cons e es ih => simp [tupleLeaves, ih]

theorem objectLeaves_mem {es : List (ObjKey × Expr)} {l : Leaf} :
    l ∈ objectLeaves es ↔ ∃ p ∈ es, l = .key p.1 ∨ l ∈ exprLeaves p.2 := by
  induction es with
  | nil => simp [objectLeaves]
  | cons p es ih => obtain ⟨k, e⟩ := p; simp [objectLeaves, ih, or_assoc]

theorem bodyLeaves_mem {b : List BodyElement} {l : Leaf} : l ∈ bodyLeaves b ↔ ∃ x ∈ b, l ∈ elementLeaves x := by
  induction b with
  | nil => simp [bodyLeaves]
  | cons e es ih => simp [bodyLeaves, ih]

theorem mem_zip_names {fs : List (Str × Ty)} {vs : List DVal} : ∀ {q : Str × DVal}, q ∈ (fs.map Prod.fst).zip vs →
    ∃ f ∈ fs, q.1 = f.1 ∧ (f, q.2) ∈ fs.zip vs := by
  induction fs generalizing vs with
  | nil => intro q h; cases h
  | cons f fs ih =>
    intro q h
    cases vs with
    | nil => simp at h
    | cons v vs =>
      rw [List.map_cons, List.zip_cons_cons] at h
      rcases List.mem_cons.1 h with rfl | h
      · exact ⟨f, by simp, rfl, by simp⟩
      · obtain ⟨g, hg, h1, h2⟩ := ih h
        exact ⟨g, List.mem_cons_of_mem _ hg, h1, by rw [List.zip_cons_cons]; exact List.mem_cons_of_mem _ h2⟩

theorem mem_zip_right {α β : Type} : ∀ {as : List α} {bs : List β} {b : β}, bs.length = as.length → b ∈ bs →
    ∃ a, (a, b) ∈ as.zip bs
  | [], _ :: _, _, hl, _ => by simp at hl
  | a :: as, c :: bs, b, hl, h => by
    rcases List.mem_cons.1 h with rfl | h
    · exact ⟨a, by simp⟩
    · obtain ⟨x, hx⟩ := mem_zip_right (as := as) (by simpa using hl) h
      exact ⟨x, by rw [List.zip_cons_cons]; exact List.mem_cons_of_mem _ hx⟩

theorem object_printable {es : List (Str × DVal)} (hk : ∀ p ∈ es, IsIdent U p.1)
    (hv : ∀ p ∈ es, ∀ l ∈ exprLeaves (toExpr F p.2), LeafPrintable U l) :
    ∀ l ∈ exprLeaves (toExpr F (.entries es)), LeafPrintable U l := by
  intro l hl
  simp only [toExpr, exprLeaves, toObject_eq] at hl
  obtain ⟨p, hp, h⟩ := objectLeaves_mem.1 hl
  obtain ⟨q, hq, rfl⟩ := List.mem_map.1 hp
  rcases h with rfl | h
  · exact hk q hq
  · exact hv q hq l h

theorem floatText_of_lit {x : F64} (h : FloatLit P x) : FloatText P I x := by
  obtain ⟨n, h1, h2⟩ := h
  exact ⟨n, h1, .inl h2⟩

theorem expressible_printable (hF : WritesFloats P I F) {t : Ty} {v : DVal} (h : Expressible U P I t v) :
    ∀ l ∈ exprLeaves (toExpr F v), LeafPrintable U l := by
  induction h with
  | int T k =>
    intro l hl
    simp [toExpr, exprLeaves] at hl
    subst hl
    exact isNumber_forget (intNumber_isNumber k)
  | float x hx =>
    intro l hl
    simp [toExpr, exprLeaves] at hl
    subst hl
    exact (hF.1 x hx).1
  | float32 x hx =>
    intro l hl
    simp [toExpr, exprLeaves] at hl
    subst hl
    exact (hF.2.2 x hx).1
  | string s => intro l hl; simp [toExpr, exprLeaves] at hl; subst hl; trivial
  | anyString s => intro l hl; simp [toExpr, exprLeaves] at hl; subst hl; trivial
  | anyInt k =>
    intro l hl
    simp [toExpr, exprLeaves] at hl
    subst hl
    exact isNumber_forget (intNumber_isNumber k)
  | anyFloat x hx =>
    intro l hl
    simp [toExpr, exprLeaves] at hl
    subst hl
    exact (hF.1 x (floatText_of_lit hx)).1
  | anySeq vs _ ih =>
    intro l hl
    simp only [toExpr, exprLeaves, toExprs_eq] at hl
    obtain ⟨e, he, hl⟩ := tupleLeaves_mem.1 hl
    obtain ⟨v, hv, rfl⟩ := List.mem_map.1 he
    exact ih v hv l hl
  | anyMap es _ hk _ ih => exact object_printable hk ih
  | bytes u vs h =>
    intro l hl
    simp only [toExpr, exprLeaves, toExprs_eq] at hl
    obtain ⟨e, he, hl⟩ := tupleLeaves_mem.1 hl
    obtain ⟨v, hv, rfl⟩ := List.mem_map.1 he
    obtain ⟨k, rfl, -, -⟩ := h v hv
    simp [toExpr, exprLeaves] at hl
    subst hl
    exact isNumber_forget (intNumber_isNumber k)
  | char s => intro l hl; simp [toExpr, exprLeaves] at hl; subst hl; trivial
  | some t v _ _ _ ih => simpa [toExpr] using ih
  | seq t vs _ ih =>
    intro l hl
    simp only [toExpr, exprLeaves, toExprs_eq] at hl
    obtain ⟨e, he, hl⟩ := tupleLeaves_mem.1 hl
    obtain ⟨v, hv, rfl⟩ := List.mem_map.1 he
    exact ih v hv l hl
  | tuple ts vs hlen _ ih =>
    intro l hl
    simp only [toExpr, exprLeaves, toExprs_eq] at hl
    obtain ⟨e, he, hl⟩ := tupleLeaves_mem.1 hl
    obtain ⟨v, hv, rfl⟩ := List.mem_map.1 he
    obtain ⟨t, ht⟩ := mem_zip_right hlen hv
    exact ih _ ht l hl
  | tupleStruct ts vs hlen _ ih =>
    intro l hl
    simp only [toExpr, exprLeaves, toExprs_eq] at hl
    obtain ⟨e, he, hl⟩ := tupleLeaves_mem.1 hl
    obtain ⟨v, hv, rfl⟩ := List.mem_map.1 he
    obtain ⟨t, ht⟩ := mem_zip_right hlen hv
    exact ih _ ht l hl
  | map t es _ hk _ ih => exact object_printable hk ih
  | struct fs vs hk hl _ ih =>
    refine object_printable (fun p hp => ?_) (fun p hp => ?_)
    · obtain ⟨f, hf, h1, -⟩ := mem_zip_names hp
      rw [h1]; exact hk f hf
    · obtain ⟨f, -, -, h2⟩ := mem_zip_names hp
      exact ih _ h2
  | newtype t v _ ih => exact ih
  | _ => intro l hl; simp [toExpr, exprLeaves] at hl

theorem toBody_printable (hF : WritesFloats P I F) {t : Ty} {v : DVal} (ht : IsDocument t v) (h : Expressible U P I t v) :
    Printable U (toBody F v) := by
  intro l hl
  cases v with
  | entries es =>
    obtain ⟨x, hx, hl⟩ := bodyLeaves_mem.1 hl
    obtain ⟨p, hp, rfl⟩ := List.mem_map.1 hx
    simp only [elementLeaves, List.mem_cons] at hl
    have key : IsIdent U p.1 ∧ ∃ t', Expressible U P I t' p.2 := by
      rcases ht with ⟨fs, rfl⟩ | ⟨t', rfl⟩ | rfl | ⟨rfl, -⟩
      · generalize hz : DVal.entries es = z at h
        cases h with
        | struct _ vs hk hlen hv =>
          cases hz
          obtain ⟨f, hf, h1, h2⟩ := mem_zip_names hp
          exact ⟨by rw [h1]; exact hk f hf, f.2, hv _ h2⟩
      · cases h with
        | map _ _ _ hk hv => exact ⟨hk p hp, t', hv p hp⟩
      · cases h
      · cases h with
        | anyMap _ _ hk hv => exact ⟨hk p hp, .any, hv p hp⟩
    rcases hl with rfl | hl
    · exact key.1
    · exact expressible_printable hF key.2.choose_spec l hl
  | _ => simp [toBody, bodyLeaves] at hl

theorem toBody_reads (hF : WritesFloats P I F) {t : Ty} {v : DVal} (ht : IsDocument t v) (h : Expressible U P I t v)
    (hp : ProperTy t) : Reads P I t (.body (toBody F v)) v := by
  rcases ht with ⟨fs, rfl⟩ | ⟨t', rfl⟩ | rfl | ⟨rfl, es, rfl⟩
  · cases hp with
    | struct _ hd hp =>
      cases h with
      | struct _ vs hk hl hv =>
        exact .body _ _ _ _ (bodyEntries_of (by rw [struct_map_fst hl]; exact hd))
          (readsMap_struct hl fun p hq => expressible_reads hF (hv p hq) (hp _ (mem_zip_fields hq)))
  · cases hp with
    | map _ hp =>
      cases h with
      | map _ es hn hk hv =>
        exact .body _ _ _ _ (bodyEntries_of hn) (.map _ _ _ (readsEach_of fun p hq => expressible_reads hF (hv p hq) hp))
  · cases h
    have hb : BodyEntries (toBody F .ignored) [] := by
      have := bodyEntries_of (F := F) (es := []) (by simp)
      exact this
    exact .body _ _ _ _ hb (.ignored _ [] (.nil _))
  · cases h with
    | anyMap _ hn hk hv =>
      exact .body _ _ _ _ (bodyEntries_of hn) (.any _ _ (readsEach_of fun p hq => expressible_reads hF (hv p hq) .any))

/-! ## what is read can be written -/

/-- The node comes from a parsed document. -/
def NodePrintable (U : CharClass) : Node → Prop
  | .expr e => ∀ l ∈ exprLeaves e, LeafPrintable U l
  | .body b => Printable U b
  | .block c => ∀ bs, Unlabelled c bs → ∀ b ∈ bs, Printable U b
  | .key _ => False

theorem attrs_mem {b : Body} {k : CowStr} {e : Expr} : (k, e) ∈ attrs b ↔ BodyElement.attribute k e ∈ b := by
  unfold attrs
  rw [List.mem_filterMap]
  constructor
  · rintro ⟨x, hx, h⟩
    cases x with
    | «attribute» k' e' => cases h; exact hx
    | block => cases h
  · intro h; exact ⟨_, h, rfl⟩

theorem blocks_mem {b : Body} {q : Block} : q ∈ blocks b ↔ BodyElement.block q.type q.labels q.body ∈ b := by
  unfold blocks
  rw [List.mem_filterMap]
  constructor
  · rintro ⟨x, hx, h⟩
    cases x with
    | «attribute» k' e' => cases h
    | block => cases h; exact hx
  · intro h; exact ⟨_, h, rfl⟩

theorem entry_printable {b : Body} (h : Printable U b) {k : Str} {n : Node} (he : EntryOf b k n) :
    IsIdent U k ∧ NodePrintable U n := by
  rcases he with ⟨k', e, hm, rfl, rfl⟩ | ⟨run, hr, rfl⟩
  · have hm := attrs_mem.1 hm
    refine ⟨h (.name k') (bodyLeaves_mem.2 ⟨_, hm, by simp [elementLeaves]⟩), fun l hl => ?_⟩
    exact h l (bodyLeaves_mem.2 ⟨_, hm, by simp [elementLeaves, hl]⟩)
  · have hsub := lastRun_sub hr
    constructor
    · obtain ⟨q, hq, hqk⟩ := hsub.1
      rw [← hqk]
      exact h (.name q.type) (bodyLeaves_mem.2 ⟨_, blocks_mem.1 hq, by simp [elementLeaves]⟩)
    · intro bs hu x hx
      have hr' := unlabelled_fromIter hu
      have : ([], x) ∈ run.map fun q => (q.labels, q.body) := by
        rw [hr']; exact List.mem_map.2 ⟨x, hx, rfl⟩
      obtain ⟨q, hq, he⟩ := List.mem_map.1 this
      injection he with h1 h2
      subst h2
      intro l hl
      exact h l (bodyLeaves_mem.2 ⟨_, blocks_mem.1 (hsub.2 q hq), by simp [elementLeaves, hl]⟩)

theorem field_printable {o : List (ObjKey × Expr)} (h : ∀ l ∈ exprLeaves (.object o), LeafPrintable U l)
    {ns : List (Str × Node)} (he : ObjectEntries o ns) {k : Str} {n : Node} (hm : (k, n) ∈ ns) :
    IsIdent U k ∧ NodePrintable U n := by
  obtain ⟨l, rfl, -, rfl⟩ := he
  obtain ⟨p, hp, hq⟩ := List.mem_map.1 hm
  cases hq
  have hp' : (ObjKey.ident p.1, p.2) ∈ l.map fun p => (ObjKey.ident p.1, p.2) := List.mem_map.2 ⟨p, hp, rfl⟩
  refine ⟨h (.key (.ident p.1)) (objectLeaves_mem.2 ⟨_, hp', .inl rfl⟩), fun l hl => ?_⟩
  exact h l (objectLeaves_mem.2 ⟨_, hp', .inr hl⟩)

/-- Values other than `()` and `None`. -/
def Solid (v : DVal) : Prop := v ≠ .unit ∧ v ≠ .none

theorem readsMap_solid {t : Ty} {ns : List (Str × Node)} {v : DVal} (h : ReadsMap P I t ns v) : Solid v := by
  cases h <;> constructor <;> simp

theorem readsSeq_solid {t : Ty} {ns : List Node} {v : DVal} (h : ReadsSeq P I t ns v) (hn : ∀ t', t ≠ .newtype t') : Solid v := by
  cases h with
  | newtype t' => exact absurd rfl (hn t')
  | _ => constructor <;> simp

theorem body_solid {t : Ty} {b : Body} {v : DVal} (h : Reads P I t (.body b) v) : Solid v := by
  cases h with
  | body => exact readsMap_solid ‹_›

theorem expr_solid : ∀ {t : Ty} {e : Expr} {v : DVal}, Reads P I t (.expr e) v → e ≠ .null → Solid v
  | _, _, _, .unit, h => absurd rfl h
  | _, _, _, .unitStruct, h => absurd rfl h
  | _, _, _, .none _, h => absurd rfl h
  | _, _, _, .ignoredNull, h => absurd rfl h
  | _, _, _, .anyNull, h => absurd rfl h
  | _, _, _, .bool _, _ => by constructor <;> simp
  | _, _, _, .int .., _ => by constructor <;> simp
  | _, _, _, .float .., _ => by constructor <;> simp
  | _, _, _, .floatOfInt .., _ => by constructor <;> simp
  | _, _, _, .float32 .., _ => by constructor <;> simp
  | _, _, _, .float32OfInt .., _ => by constructor <;> simp
  | _, _, _, .string .., _ => by constructor <;> simp
  | _, _, _, .str .., _ => by constructor <;> simp
  | _, _, _, .char .., _ => by constructor <;> simp
  | _, _, _, .some .., _ => by constructor <;> simp
  | _, _, _, .newtype _ _ _ h, hn => expr_solid h hn
  | _, _, _, .tuple _ _ _ _ hn h, _ => readsSeq_solid h hn
  | _, _, _, .object _ _ _ _ _ h, _ => readsMap_solid h
  | _, _, _, .ignoredBool .., _ => by constructor <;> simp
  | _, _, _, .ignoredInt .., _ => by constructor <;> simp
  | _, _, _, .ignoredFloat .., _ => by constructor <;> simp
  | _, _, _, .ignoredString .., _ => by constructor <;> simp
  | _, _, _, .anyBool .., _ => by constructor <;> simp
  | _, _, _, .anyInt .., _ => by constructor <;> simp
  | _, _, _, .anyFloat .., _ => by constructor <;> simp
  | _, _, _, .anyString .., _ => by constructor <;> simp
  | _, _, _, .bytesString .., _ => by constructor <;> simp

theorem block_solid {t : Ty} {c : BlockBody} {v : DVal} (h : Reads P I t (.block c) v) (hc : c.lenBlocks ≠ 0) : Solid v := by
  cases h with
  | block => exact body_solid ‹_›
  | blocks _ _ bs _ hu hl hr h =>
    generalize hz : bs.map Node.body = z at h
    cases h with
    | newtype t' n rest _ hn =>
      cases bs with
      | nil => cases hz
      | cons b bs => cases hz; exact body_solid hn
    | _ => constructor <;> simp
  | someBlock => constructor <;> simp
  | noBlock => contradiction

theorem Spec.NamedTy.option_inv {t : Ty} (h : NamedTy U (.option t)) : NamedTy U t := by
  cases h with
  | leaf _ h => cases h
  | option _ h => exact h

theorem Spec.NamedTy.seq_inv {t : Ty} (h : NamedTy U (.seq t)) : NamedTy U t := by
  cases h with
  | leaf _ h => cases h
  | seq _ h => exact h

theorem Spec.NamedTy.newtype_inv {t : Ty} (h : NamedTy U (.newtype t)) : NamedTy U t := by
  cases h with
  | leaf _ h => cases h
  | newtype _ h => exact h

theorem Spec.NamedTy.map_inv {t : Ty} (h : NamedTy U (.map t)) : NamedTy U t := by
  cases h with
  | leaf _ h => cases h
  | map _ h => exact h

theorem Spec.NamedTy.tuple_inv {ts : List Ty} (h : NamedTy U (.tuple ts)) : ∀ t ∈ ts, NamedTy U t := by
  cases h with
  | leaf _ h => cases h
  | tuple _ h => exact h

theorem Spec.NamedTy.tupleStruct_inv {ts : List Ty} (h : NamedTy U (.tupleStruct ts)) : ∀ t ∈ ts, NamedTy U t := by
  cases h with
  | leaf _ h => cases h
  | tupleStruct _ h => exact h

theorem Spec.NamedTy.struct_inv {fs : List (Str × Ty)} (h : NamedTy U (.struct fs)) :
    (∀ f ∈ fs, IsIdent U f.1) ∧ ∀ f ∈ fs, NamedTy U f.2 := by
  cases h with
  | leaf _ h => cases h
  | struct _ h h' => exact ⟨h, h'⟩

/-- What a type needs. -/
def OkTy (U : CharClass) (t : Ty) : Prop := NamedTy U t ∧ StrFree t

theorem OkTy.option {t : Ty} (h : OkTy U (.option t)) : OkTy U t := ⟨h.1.option_inv, by cases h.2; assumption⟩
theorem OkTy.seq {t : Ty} (h : OkTy U (.seq t)) : OkTy U t := ⟨h.1.seq_inv, by cases h.2; assumption⟩
theorem OkTy.newtype {t : Ty} (h : OkTy U (.newtype t)) : OkTy U t := ⟨h.1.newtype_inv, by cases h.2; assumption⟩
theorem OkTy.map {t : Ty} (h : OkTy U (.map t)) : OkTy U t := ⟨h.1.map_inv, by cases h.2; assumption⟩
theorem OkTy.tuple {ts : List Ty} (h : OkTy U (.tuple ts)) : ∀ t ∈ ts, OkTy U t := fun t ht =>
  ⟨h.1.tuple_inv t ht, by cases h.2; rename_i h'; exact h' t ht⟩
theorem OkTy.tupleStruct {ts : List Ty} (h : OkTy U (.tupleStruct ts)) : ∀ t ∈ ts, OkTy U t := fun t ht =>
  ⟨h.1.tupleStruct_inv t ht, by cases h.2; rename_i h'; exact h' t ht⟩
theorem OkTy.struct {fs : List (Str × Ty)} (h : OkTy U (.struct fs)) : ∀ f ∈ fs, OkTy U f.2 := fun f hf =>
  ⟨h.1.struct_inv.2 f hf, by cases h.2; rename_i h'; exact h' f hf⟩

mutual
theorem reads_expressible : ∀ {t : Ty} {n : Node} {v : DVal}, Reads P I t n v → NodePrintable U n → OkTy U t →
    Expressible U P I t v
  | _, _, _, .unit, _, _ => .unit
  | _, _, _, .unitStruct, _, _ => .unitStruct
  | _, _, _, .bool b, _, _ => .bool b
  | _, _, _, .int T n k hk h1 h2, _, _ => .int T k h1 h2 (isInteger_range hk).1 (isInteger_range hk).2
  | _, _, _, .float n x hx, hn, _ => .float x ⟨n, hn (.number n) (by simp [exprLeaves]), .inl hx⟩
  | _, _, _, .floatOfInt n k hk, hn, _ => .float _ ⟨n, hn (.number n) (by simp [exprLeaves]), .inr ⟨k, hk, rfl⟩⟩
  | _, _, _, .float32 n x hx, hn, _ => .float32 _ ⟨n, hn (.number n) (by simp [exprLeaves]), .inl ⟨x, hx, rfl⟩⟩
  | _, _, _, .float32OfInt n k hk, hn, _ => .float32 _ ⟨n, hn (.number n) (by simp [exprLeaves]), .inr ⟨k, hk, rfl⟩⟩
  | _, _, _, .string s, _, _ => .string _
  | _, _, _, .str s, _, ht => nomatch ht.2
  | _, _, _, .char s c hc, _, _ => .char c
  | _, _, _, .none t, _, _ => .none t
  | _, _, _, .some t e v he h, hn, ht => .some t v (expr_solid h he).1 (expr_solid h he).2 (reads_expressible h hn ht.option)
  | _, _, _, .newtype t e v h, hn, ht => .newtype t v (reads_expressible h hn ht.newtype)
  | _, _, _, .tuple t es v hl hnew h, hn, ht => by
    refine readsSeq_expressible h (fun n hm => ?_) ht
    obtain ⟨e, he, rfl⟩ := List.mem_map.1 hm
    exact fun l hl => hn l (tupleLeaves_mem.2 ⟨e, he, hl⟩)
  | _, _, _, .object t o ns v he h, hn, ht => by
    refine readsMap_expressible h (fun p hp => field_printable hn he hp) ?_ ht
    obtain ⟨l, rfl, hd, rfl⟩ := he
    rw [List.map_map]; exact hd
  | _, _, _, .body t b ns v he h, hn, ht =>
    readsMap_expressible h (fun p hp => entry_printable hn ((he.2.2.2 _ _).1 hp)) he.2.2.1 ht
  | _, _, _, .block t c b v hu hs h, hn, ht => reads_expressible h (hn _ hu b (by simp)) ht
  | _, _, _, .blocks t c bs v hu hl hr h, hn, ht => by
    refine readsSeq_expressible h (fun n hm => ?_) ht
    obtain ⟨b, hb, rfl⟩ := List.mem_map.1 hm
    exact hn _ hu b hb
  | _, _, _, .someBlock t c v hc h, hn, ht =>
    .some t v (block_solid h hc).1 (block_solid h hc).2 (reads_expressible h hn ht.option)
  | _, _, _, .noBlock t c hc, _, _ => .none t
  | _, _, _, .keyString s, hn, _ => hn.elim
  | _, _, _, .keyChar .., hn, _ => hn.elim
  | _, _, _, .keyEnum .., hn, _ => hn.elim
  | _, _, _, .ignoredNull, _, _ => .ignored
  | _, _, _, .ignoredBool _, _, _ => .ignored
  | _, _, _, .ignoredInt .., _, _ => .ignored
  | _, _, _, .ignoredFloat .., _, _ => .ignored
  | _, _, _, .ignoredString _, _, _ => .ignored
  | _, _, _, .ignoredKey _, _, _ => .ignored
  | _, _, _, .anyNull, _, _ => .anyUnit
  | _, _, _, .anyBool b, _, _ => .anyBool b
  | _, _, _, .anyInt n k hk, _, _ => .anyInt k (isInteger_range hk).1 (isInteger_range hk).2
  | _, _, _, .anyFloat n x hx, hn, _ => .anyFloat x ⟨n, hn (.number n) (by simp [exprLeaves]), hx⟩
  | _, _, _, .anyString s, _, _ => .anyString _
  | _, _, _, .anyKey s, _, _ => .anyString _
  | _, _, _, .bytesString u s, _, _ => .bytes u _ (utf8_bytes s.str)
  | _, _, _, .bytesKey u s, _, _ => .bytes u _ (utf8_bytes s.str)

theorem readsSeq_expressible : ∀ {t : Ty} {ns : List Node} {v : DVal}, ReadsSeq P I t ns v → (∀ n ∈ ns, NodePrintable U n) →
    OkTy U t → Expressible U P I t v
  | _, _, _, .seq t ns vs h, hn, ht => .seq t vs (readsAll_expressible h hn ht.seq)
  | _, _, _, .tuple ts ns rest vs h, hn, ht =>
    have := readsFields_expressible h (fun n hm => hn n (List.mem_append_left _ hm)) ht.tuple
    .tuple ts vs this.1 this.2
  | _, _, _, .tupleStruct ts ns rest vs h, hn, ht =>
    have := readsFields_expressible h (fun n hm => hn n (List.mem_append_left _ hm)) ht.tupleStruct
    .tupleStruct ts vs this.1 this.2
  | _, _, _, .struct fs ns rest vs h, hn, ht => by
    have := readsFields_expressible h (fun n hm => hn n (List.mem_append_left _ hm)) (fun t hm => by
      obtain ⟨f, hf, rfl⟩ := List.mem_map.1 hm; exact ht.struct f hf)
    have hl : vs.length = fs.length := by simpa using this.1
    refine .struct fs vs ht.1.struct_inv.1 hl fun p hp => this.2 (p.1.2, p.2) ?_
    rw [List.zip_map_left]
    exact List.mem_map.2 ⟨p, hp, rfl⟩
  | _, _, _, .newtype t n rest v h, hn, ht => .newtype t v (reads_expressible h (hn n (by simp)) ht.newtype)
  | _, _, _, .ignored .., _, _ => .ignored
  | _, _, _, .any ns vs h, hn, ht => .anySeq vs (readsAll_expressible h hn ht)
  | _, _, _, .bytes u ns vs h, hn, _ => .bytes u vs fun v hv => by
    have := readsAll_expressible h hn ⟨.leaf _ trivial, .int _⟩ v hv
    cases this with
    | int _ k h1 h2 _ _ => exact ⟨k, rfl, u8_range.1 ⟨h1, h2⟩⟩

theorem readsMap_expressible : ∀ {t : Ty} {ns : List (Str × Node)} {v : DVal}, ReadsMap P I t ns v →
    (∀ p ∈ ns, IsIdent U p.1 ∧ NodePrintable U p.2) → (ns.map Prod.fst).Nodup → OkTy U t → Expressible U P I t v
  | _, _, _, .map t ns vs h, hn, hd, ht =>
    have := readsEach_expressible h hn ht.map
    .map t vs (by rw [this.1]; exact hd) (fun p hp => (this.2 p hp).1) fun p hp => (this.2 p hp).2
  | _, _, _, .struct fs ns vs h _, hn, _, ht => by
    obtain ⟨ws, h1, h2, rfl⟩ := readsStruct_expressible h hn ht.struct
    exact .struct fs ws ht.1.struct_inv.1 h1 h2
  | _, _, _, .ignored .., _, _, _ => .ignored
  | _, _, _, .any ns vs h, hn, hd, ht =>
    have := readsEach_expressible h hn ht
    .anyMap vs (by rw [this.1]; exact hd) (fun p hp => (this.2 p hp).1) fun p hp => (this.2 p hp).2

theorem readsAll_expressible : ∀ {t : Ty} {ns : List Node} {vs : List DVal}, ReadsAll P I t ns vs → (∀ n ∈ ns, NodePrintable U n) →
    OkTy U t → ∀ v ∈ vs, Expressible U P I t v
  | _, _, _, .nil _, _, _ => by simp
  | _, _, _, .cons t n v ns vs h hs, hn, ht => by
    have h1 := reads_expressible h (hn n (by simp)) ht
    have h2 := readsAll_expressible hs (fun n hm => hn n (List.mem_cons_of_mem _ hm)) ht
    intro w hw
    rcases List.mem_cons.1 hw with rfl | hw
    · exact h1
    · exact h2 w hw

theorem readsFields_expressible : ∀ {ts : List Ty} {ns : List Node} {vs : List DVal}, ReadsFields P I ts ns vs →
    (∀ n ∈ ns, NodePrintable U n) → (∀ t ∈ ts, OkTy U t) →
    vs.length = ts.length ∧ ∀ p ∈ ts.zip vs, Expressible U P I p.1 p.2
  | _, _, _, .nil, _, _ => by simp
  | _, _, _, .cons t n v ts ns vs h hs, hn, ht => by
    have := readsFields_expressible hs (fun n hm => hn n (List.mem_cons_of_mem _ hm)) (fun t hm => ht t (List.mem_cons_of_mem _ hm))
    have h1 := reads_expressible h (hn n (by simp)) (ht t (by simp))
    refine ⟨by simp [this.1], fun p hp => ?_⟩
    rw [List.zip_cons_cons] at hp
    rcases List.mem_cons.1 hp with rfl | hp
    · exact h1
    · exact this.2 p hp

theorem readsEach_expressible : ∀ {t : Ty} {ns : List (Str × Node)} {vs : List (Str × DVal)}, ReadsEach P I t ns vs →
    (∀ p ∈ ns, IsIdent U p.1 ∧ NodePrintable U p.2) → OkTy U t →
    vs.map Prod.fst = ns.map Prod.fst ∧ ∀ p ∈ vs, IsIdent U p.1 ∧ Expressible U P I t p.2
  | _, _, _, .nil _, _, _ => by simp
  | _, _, _, .cons t k n v ns vs h hs, hn, ht => by
    have := readsEach_expressible hs (fun n hm => hn n (List.mem_cons_of_mem _ hm)) ht
    have h1 := reads_expressible h (hn (k, n) (by simp)).2 ht
    refine ⟨by simp [this.1], fun p hp => ?_⟩
    rcases List.mem_cons.1 hp with rfl | hp
    · exact ⟨(hn (k, n) (by simp)).1, h1⟩
    · exact this.2 p hp

theorem readsStruct_expressible : ∀ {fs : List (Str × Ty)} {ns : List (Str × Node)} {vs : List (Str × DVal)},
    ReadsStruct P I fs ns vs → (∀ p ∈ ns, IsIdent U p.1 ∧ NodePrintable U p.2) → (∀ f ∈ fs, OkTy U f.2) →
    ∃ ws, ws.length = fs.length ∧ (∀ p ∈ fs.zip ws, Expressible U P I p.1.2 p.2) ∧ vs = (fs.map Prod.fst).zip ws
  | _, _, _, .nil _, _, _ => ⟨[], by simp⟩
  | _, _, _, .present k t n v fs ns vs hm h hs, hn, ht => by
    obtain ⟨ws, h1, h2, rfl⟩ := readsStruct_expressible hs hn (fun f hf => ht f (List.mem_cons_of_mem _ hf))
    have h3 := reads_expressible h (hn _ hm).2 (ht (k, t) (by simp))
    refine ⟨v :: ws, by simp [h1], fun p hp => ?_, rfl⟩
    rw [List.zip_cons_cons] at hp
    rcases List.mem_cons.1 hp with rfl | hp
    · exact h3
    · exact h2 p hp
  | _, _, _, .absent k t fs ns vs hm hs, hn, ht => by
    obtain ⟨ws, h1, h2, rfl⟩ := readsStruct_expressible hs hn (fun f hf => ht f (List.mem_cons_of_mem _ hf))
    refine ⟨.none :: ws, by simp [h1], fun p hp => ?_, rfl⟩
    rw [List.zip_cons_cons] at hp
    rcases List.mem_cons.1 hp with rfl | hp
    · exact .none t
    · exact h2 p hp
end

end Verif
