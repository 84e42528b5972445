import Verif.Proofs.DeAttrs
import Verif.Props.DeKeys
import Verif.Proofs.Alike
/-!
# Structs with serde attributes: C98
-/
set_option autoImplicit false

namespace Verif.Props
open Verif Spec

section
variable (P : F64Parse) (I : F64OfInt) (ord : HashOrder)

/-- The value can be thrown away. -/
abbrev Skippable (n : Node) : Prop := ∃ w, deserialize P I ord .ignored n = .ok w

private theorem attr_body (S : StructSpec) (b : Body) {es : List (CowStr × Node)} {s : Stop} (hD : Drains (.body (.new ord b)) es s) :
    deserializeAttr P I ord S (.body b) =
      (runAttrs S (deserialize P I ord .ignored) es s []).bind fun found => (fillFields found S.fields).map .entries := by
  show (attrLoop S _ _ _ []).bind _ = _
  rw [attrLoop_eq hD (Nat.lt_succ_self _)]

private theorem attr_object (S : StructSpec) (o : List (ObjKey × Expr)) {es : List (CowStr × Node)} {s : Stop}
    (hD : Drains (.object (.new o)) es s) :
    deserializeAttr P I ord S (.expr (.object o)) =
      (runAttrs S (deserialize P I ord .ignored) es s []).bind fun found => (fillFields found S.fields).map .entries := by
  show (attrLoop S _ _ _ []).bind _ = _
  rw [attrLoop_eq hD (Nat.lt_succ_self _)]

private theorem readsSpec_congr {ig ig' : Node → Prop} {S : StructSpec} {has has' : Str → Node → Prop} {v : DVal}
    (h : ∀ k n, has k n ↔ has' k n) (hi : ∀ n, ig n ↔ ig' n) : ReadsSpec ig S has v ↔ ReadsSpec ig' S has' v := by
  have : has = has' := by funext k n; exact propext (h k n)
  have hj : ig = ig' := by funext n; exact propext (hi n)
  rw [this, hj]

/-- C98: a body into a struct with attributes. It succeeds iff attribute names are distinct, no block has the name of an
attribute, and the entries give the struct (`ReadsSpec`): no field is given under two of its names, every field has the value of
its entry, or its default, or `None`; and undeclared entries are allowed and can be skipped. -/
theorem c98_body (S : StructSpec) (hS : ProperSpec S) (b : Body) (v : DVal) :
    deserializeAttr P I ord S (.body b) = .ok v ↔
      Distinct (attrs b) ∧ ¬ NameClash b ∧ ReadsSpec (Skippable P I ord) S (EntryOf b) v := by
  constructor
  · intro h
    obtain ⟨es, s, hD, -⟩ := drains_exists (.body (.new ord b))
    rw [attr_body P I ord S b hD, runAttrs_fill hS (drains_nodup hD).1] at h
    obtain ⟨rfl, h⟩ := h
    obtain ⟨-, hd, hc, he⟩ := drained_entry hD
    exact ⟨hd, hc, (readsSpec_congr he fun _ => Iff.rfl).1 h⟩
  · rintro ⟨hd, hc, h⟩
    obtain ⟨es, hD⟩ := drained_exists ord hd hc
    obtain ⟨hn, -, -, he⟩ := drained_entry hD
    rw [attr_body P I ord S b hD, runAttrs_fill hS hn]
    exact ⟨rfl, (readsSpec_congr he fun _ => Iff.rfl).2 h⟩

/-- C98: an object into a struct with attributes: the same, if all its keys are identifiers and no two are the same. -/
theorem c98_object (S : StructSpec) (hS : ProperSpec S) (o : List (ObjKey × Expr)) (v : DVal) :
    deserializeAttr P I ord S (.expr (.object o)) = .ok v ↔
      ∃ l, o = l.map (fun p : CowStr × Expr => (.ident p.1, p.2)) ∧ Distinct l ∧
        ReadsSpec (Skippable P I ord) S (fun k n => ∃ p ∈ l, p.1.str = k ∧ n = .expr p.2) v := by
  have hcongr : ∀ (l : List (CowStr × Expr)) k n, (∃ p ∈ l.map (fun p => (p.1, Node.expr p.2)), p.1.str = k ∧ p.2 = n) ↔
      ∃ p ∈ l, p.1.str = k ∧ n = .expr p.2 := by
    intro l k n
    constructor
    · rintro ⟨_, hp, rfl, rfl⟩
      obtain ⟨p, hp', rfl⟩ := List.mem_map.1 hp
      exact ⟨p, hp', rfl, rfl⟩
    · rintro ⟨p, hp, rfl, rfl⟩
      exact ⟨_, List.mem_map.2 ⟨p, hp, rfl⟩, rfl, rfl⟩
  constructor
  · intro h
    obtain ⟨es, s, hD, -⟩ := drains_exists (.object (.new o))
    rw [attr_object P I ord S o hD, runAttrs_fill hS (drains_nodup hD).1] at h
    obtain ⟨rfl, h⟩ := h
    rcases c46_complete o with ⟨l, rfl, hl⟩ | ⟨pre, k, e, post, rfl, hp, hk⟩ | ⟨pre, k, e, post, rfl, hp⟩
    · obtain ⟨rfl, -⟩ := drains_functional hD (c46_entries l hl)
      exact ⟨l, rfl, hl, (readsSpec_congr (hcongr l) fun _ => Iff.rfl).1 h⟩
    · cases (drains_functional hD (c46_duplicate pre k e post hp hk)).2
    · cases (drains_functional hD (c46_expression_key pre k e post hp)).2
  · rintro ⟨l, rfl, hl, h⟩
    have hD := c46_entries l hl
    have := attr_object P I ord S (identObject l) hD
    rw [show l.map (fun p : CowStr × Expr => (ObjKey.ident p.1, p.2)) = identObject l from rfl, this,
      runAttrs_fill hS (drains_nodup hD).1]
    exact ⟨rfl, (readsSpec_congr (hcongr l) fun _ => Iff.rfl).2 h⟩

/-- C98: a tuple into a struct with attributes, by position: the i-th field from the i-th item; fields without an item need a
default (an `Option` is not enough), and items without a field are not looked at. -/
theorem c98_by_position (S : StructSpec) (es : List Expr) (v : DVal) :
    deserializeAttr P I ord S (.expr (.tuple es)) = .ok v ↔
      ∃ vs, v = .entries vs ∧ vs.length = S.fields.length ∧ ∀ i (h : i < S.fields.length) (h' : i < vs.length),
        vs[i].1 = S.fields[i].name ∧ (∀ h2 : i < es.length, S.fields[i].read (.expr es[i]) = .ok vs[i].2) ∧
        (es.length ≤ i → S.fields[i].default = some vs[i].2) := by
  show (seqFields S.fields (es.map .expr)).map DVal.entries = .ok v ↔ _
  rw [map_ok]
  constructor
  · rintro ⟨vs, h, rfl⟩
    obtain ⟨h1, h2⟩ := seqFields_ok.1 h
    refine ⟨vs, rfl, h1, fun i hi hi' => ⟨(h2 i hi hi').1, fun h => ?_, fun h => ?_⟩⟩
    · have := (h2 i hi hi').2.1 (by simpa using h)
      rwa [List.getElem_map] at this
    · exact (h2 i hi hi').2.2 (by simpa using h)
  · rintro ⟨vs, rfl, h1, h2⟩
    refine ⟨vs, seqFields_ok.2 ⟨h1, fun i hi hi' => ⟨(h2 i hi hi').1, fun h => ?_, fun h => ?_⟩⟩, rfl⟩
    · rw [List.getElem_map]
      exact (h2 i hi hi').2.1 (by simpa using h)
    · exact (h2 i hi hi').2.2 (by simpa using h)

/-- C98: nothing but a map or a sequence is a struct: null, booleans, numbers and strings are errors. -/
theorem c98_other (S : StructSpec) (e : Expr) (ho : ∀ o, e ≠ .object o) (ht : ∀ es, e ≠ .tuple es) :
    ∃ err, deserializeAttr P I ord S (.expr e) = .error err := by
  cases e with
  | object o => exact absurd rfl (ho o)
  | tuple es => exact absurd rfl (ht es)
  | null => exact ⟨_, rfl⟩
  | boolean b => exact ⟨_, rfl⟩
  | string s =>
    unfold deserializeAttr
    simp only [Node.deserialize, Expr.deserialize, Expr.deserializeAny, deserializeString, Res.bind]
    cases s.owned <;> exact ⟨_, rfl⟩
  | number n =>
    unfold deserializeAttr
    simp only [Node.deserialize, Expr.deserialize, Expr.deserializeAny, deserializeNumber]
    split
    · split <;> exact ⟨_, rfl⟩
    · split <;> split <;> exact ⟨_, rfl⟩

/-- C98: `deny_unknown_fields`: the same result, provided that every name is declared; an undeclared name is an error (or something
fails before it), never skipped. -/
theorem c98_deny_unknown_fields (fs : List FieldSpec) (hS : ProperSpec ⟨fs, true⟩) (b : Body) (v : DVal) :
    deserializeAttr P I ord ⟨fs, true⟩ (.body b) = .ok v ↔
      deserializeAttr P I ord ⟨fs, false⟩ (.body b) = .ok v ∧ ∀ k n, EntryOf b k n → ∃ f ∈ fs, k ∈ f.names := by
  rw [c98_body P I ord _ hS, c98_body P I ord ⟨fs, false⟩ hS]
  constructor
  · rintro ⟨h1, h2, h3, h4, h5⟩
    refine ⟨⟨h1, h2, h3, h4, fun k n hk hd => ?_⟩, fun k n hk => Classical.byContradiction fun hd => ?_⟩
    · have := (h5 k n hk hd).1; cases this
    · have := (h5 k n hk hd).1; cases this
  · rintro ⟨⟨h1, h2, h3, h4, -⟩, h5⟩
    exact ⟨h1, h2, h3, h4, fun k n hk hd => absurd (h5 k n hk) hd⟩

/-- C98: the first thing wrong is what is reported, and nothing behind it is looked at. After attributes that can be read: an
undeclared name is an error if these are denied, without its value being read; so is a second name of a field; otherwise the
failure of reading (or skipping) the value is the outcome. -/
theorem c98_first_failure (S : StructSpec) (hS : ProperSpec S) (b : Body) (pre post : List (CowStr × Expr)) (k : CowStr) (e : Expr)
    (hb : attrs b = pre ++ (k, e) :: post) (hd : Distinct (pre ++ [(k, e)]))
    (hg : GoodSoFar (Skippable P I ord) S pre) :
    (¬ Declared S k.str → S.deny = true → deserializeAttr P I ord S (.body b) = .error .custom) ∧
    (∀ f ∈ S.fields, k.str ∈ f.names → (∃ p ∈ pre, p.1.str ∈ f.names) → deserializeAttr P I ord S (.body b) = .error .custom) ∧
    (∀ f ∈ S.fields, k.str ∈ f.names → (∀ p ∈ pre, p.1.str ∉ f.names) → ∀ F : Failure, f.read (.expr e) = F.res →
      deserializeAttr P I ord S (.body b) = F.res) ∧
    (¬ Declared S k.str → S.deny = false → ∀ F : Failure, deserialize P I ord .ignored (.expr e) = F.res →
      deserializeAttr P I ord S (.body b) = F.res) := by
  have hmap : mapAccessIter ord b = (pre ++ [(k, e)]).map (fun p => (p.1, BodyValue.expression p.2)) ++
      (post.map (fun p => (p.1, BodyValue.expression p.2)) ++ (ord.order (Blocks.new (blocksOf b))).map fun p => (p.1, .block p.2)) := by
    rw [mapAccessIter, attributesOf_eq, hb]; simp
  have hd' : ((((pre ++ [(k, e)]).map fun p => (p.1, BodyValue.expression p.2))).map fun p => p.1.str).Nodup := by
    rw [List.map_map]; exact hd
  obtain ⟨es, s, hD⟩ := drains_body_front (v := none) (seen := []) hd' (by simp)
    (post.map (fun p => (p.1, BodyValue.expression p.2)) ++ (ord.order (Blocks.new (blocksOf b))).map fun p => (p.1, .block p.2))
  rw [← hmap] at hD
  have hD : Drains (.body (.new ord b)) (pre.map (fun p => (p.1, Node.expr p.2)) ++ (k, .expr e) :: es) s := by
    have h0 : ((pre ++ [(k, e)]).map fun p => (p.1, BodyValue.expression p.2)).map (fun p => (p.1, p.2.node)) ++ es =
        pre.map (fun p => (p.1, Node.expr p.2)) ++ (k, .expr e) :: es := by
      simp [Function.comp_def, BodyValue.node]
    rw [h0] at hD; exact hD
  have hrun := attr_body P I ord S b hD
  have hpre : Distinct pre := by
    unfold Distinct at hd ⊢
    rw [List.map_append, List.nodup_append] at hd
    exact hd.1
  have hnp : ((pre.map fun p => (p.1, Node.expr p.2)).map fun p => p.1.str).Nodup := by rw [List.map_map]; exact hpre
  -- what has been found
  obtain ⟨found, hfound⟩ : ∃ found, AllRel (fun (p : FieldSpec × Node) (q : Str × DVal) => q.1 = p.1.name ∧ p.1.read p.2 = .ok q.2)
      (forFields S (pre.map fun p => (p.1, Node.expr p.2))) found := by
    refine AllRel.exists_of fun p hp => ?_
    obtain ⟨x, hx, h1, h2⟩ := mem_forFields.1 hp
    obtain ⟨y, hy, rfl⟩ := List.mem_map.1 hx
    obtain ⟨h3, h4⟩ := fieldFor_some h1
    rcases hg.2 y hy with ⟨f, hf, hk, w, hw⟩ | ⟨hno, -⟩
    · have : f = p.1 := by
        have := (fieldFor_of_mem hS hf hk).symm.trans h1
        injection this
      subst this
      dsimp only at h2
      rw [h2] at hw
      exact ⟨(p.1.name, w), rfl, hw⟩
    · exact absurd ⟨p.1, h3, h4⟩ hno
  have hnames := allRel_fieldNames hfound fun p q h => h.1
  have hfn : (found.map Prod.fst).Nodup := by
    rw [hnames, forFields_nodup hS hnp]
    intro f hf p hp q hq h1 h2
    obtain ⟨p', hp', rfl⟩ := List.mem_map.1 hp
    obtain ⟨q', hq', rfl⟩ := List.mem_map.1 hq
    exact hg.1 f hf p' hp' q' hq' h1 h2
  have hok : runAttrs S (deserialize P I ord .ignored) (pre.map fun p => (p.1, Node.expr p.2)) .done [] = .ok found := by
    refine (runAttrs_ok (by simp)).2 ⟨rfl, ⟨found, by simp, hfn, hfound⟩, fun p hp hx => ?_⟩
    obtain ⟨p', hp', rfl⟩ := List.mem_map.1 hp
    rcases hg.2 p' hp' with ⟨f, hf, hk, -⟩ | ⟨-, h1, h2⟩
    · exact absurd hk (fieldFor_none.1 hx f hf)
    · exact ⟨h1, h2⟩
  rw [runAttrs_append hok] at hrun
  have hfield : ∀ f ∈ S.fields, (field? f.name found).isSome = true ↔ ∃ p ∈ pre, p.1.str ∈ f.names := by
    intro f hf
    rw [Option.isSome_iff_ne_none, ne_eq, field?_none, hnames, Classical.not_not]
    constructor
    · intro hm
      obtain ⟨x, hx, hxn⟩ := List.mem_map.1 hm
      obtain ⟨y, hy, h1, -⟩ := mem_forFields.1 hx
      obtain ⟨z, hz, rfl⟩ := List.mem_map.1 hy
      obtain ⟨h3, h4⟩ := fieldFor_some h1
      rw [name_inj hS h3 hf hxn] at h4
      exact ⟨z, hz, h4⟩
    · rintro ⟨p, hp, hpf⟩
      exact List.mem_map.2 ⟨(f, .expr p.2), mem_forFields.2 ⟨(p.1, .expr p.2), List.mem_map.2 ⟨p, hp, rfl⟩,
        fieldFor_of_mem hS hf hpf, rfl⟩, rfl⟩
  have hundecl : ¬ Declared S k.str → fieldFor k.str S.fields = none := fun h => fieldFor_none.2 fun f hf hk => h ⟨f, hf, hk⟩
  refine ⟨fun h1 h2 => ?_, fun f hf hk hp => ?_, fun f hf hk hp F hF => ?_, fun h1 h2 F hF => ?_⟩
  · rw [hrun]; simp [runAttrs, hundecl h1, h2, Res.bind]
  · rw [hrun]; simp [runAttrs, fieldFor_of_mem hS hf hk, (hfield f hf).2 hp, Res.bind]
  · have : ¬ (field? f.name found).isSome = true := fun h => by
      obtain ⟨p, hp', hpf⟩ := (hfield f hf).1 h
      exact hp p hp' hpf
    rw [hrun]
    rw [runAttrs, fieldFor_of_mem hS hf hk]; dsimp only; rw [if_neg this, hF]
    cases F <;> rfl
  · rw [hrun]
    simp only [runAttrs, hundecl h1, h2, Bool.false_eq_true, if_false, hF]
    cases F <;> rfl

/-- is it an `Option`? -/
def Ty.isOption : Ty → Bool
  | .option _ => true
  | _ => false

/-- The struct with fields of types of `Ty`, without attributes. -/
noncomputable abbrev withoutAttributes (fs : List (Str × Ty)) : StructSpec :=
  ⟨fs.map fun p => ⟨p.1, [], deserialize P I ord p.2, none, Ty.isOption p.2⟩, false⟩

/-- C98: without attributes, it is the derived struct of C59 and the others: from everything, and with the same failures. -/
theorem c98_without_attributes (fs : List (Str × Ty)) (n : Node) :
    deserializeAttr P I ord (withoutAttributes P I ord fs) n = deserialize P I ord (.struct fs) n := by
  have hop : ∀ t, Ty.isOption t = true ↔ ∃ t', t = .option t' := fun t => by cases t <;> simp [Ty.isOption]
  have hrun : ∀ a : MapAcc,
      ((attrLoop (withoutAttributes P I ord fs) (deserialize P I ord .ignored) (a.remaining + 1) a []).bind fun found =>
        (fillFields found (withoutAttributes P I ord fs).fields).map DVal.entries) =
      (entryLoop (fun k => deserialize P I ord ((field? k fs).getD .ignored)) (a.remaining + 1) a).bind fun es =>
        (structFields es fs).map DVal.entries := by
    intro a
    obtain ⟨es, s, hD, -⟩ := drains_exists a
    rw [attrLoop_eq hD (Nat.lt_succ_self _), entryLoop_eq hD (Nat.lt_succ_self _),
      runAttrs_plain (drains_nodup hD).1 (by simp)]
    cases runEntries (fun k => deserialize P I ord ((field? k fs).getD .ignored)) es s with
    | ok vs =>
      simp only [Res.map, Res.bind, List.nil_append]
      rw [fillFields_plain hop (p := fun k => (field? k fs).isSome)]
      intro q hq
      rw [Option.isSome_iff_ne_none, ne_eq, field?_none, Classical.not_not]
      exact List.mem_map.2 ⟨q, hq, rfl⟩
    | error e => rfl
    | panic => rfl
    | diverge => rfl
  rw [deserialize_eq]
  unfold deserializeAttr
  show ((n.deserialize P ord .forward).bind _) = (n.deserialize P ord .forward).bind _
  cases n.deserialize P ord .forward with
  | ok c =>
    cases c with
    | mapObject a => exact hrun (.object a)
    | mapBody a => exact hrun (.body a)
    | seq ns =>
      show (seqFields _ ns).map DVal.entries = (deFields _ _ ns).map _
      rw [seqFields_plain]
      cases deFields (deserialize P I ord) (fs.map Prod.snd) ns <;> rfl
    | _ => rfl
  | error e => rfl
  | panic => rfl
  | diverge => rfl

private theorem skippable_order {ord ord' : HashOrder} {n : Node} (h : Skippable P I ord n) : Skippable P I ord' n := by
  obtain ⟨w, h⟩ := h
  obtain ⟨w', h', -⟩ := c60_hash_order_irrelevant P I ord ord' .ignored n w h
  exact ⟨w', h'⟩

/-- C98: the result of reading a body does not depend on the iteration order of hash maps. -/
theorem c98_hash_order (ord' : HashOrder) (S : StructSpec) (hS : ProperSpec S) (b : Body) (v : DVal) :
    deserializeAttr P I ord S (.body b) = .ok v ↔ deserializeAttr P I ord' S (.body b) = .ok v := by
  rw [c98_body P I ord S hS, c98_body P I ord' S hS,
    readsSpec_congr (ig' := Skippable P I ord') (has' := EntryOf b) (fun _ _ => Iff.rfl)
      fun n => ⟨skippable_order P I, skippable_order P I⟩]

/-- C98: nor on the order of the attributes, on where they stand between the blocks, or on how names were written. -/
theorem c98_order (S : StructSpec) (hS : ProperSpec S) (b b' : Body) (v : DVal)
    (ha : ((attrs b).map fun p => (p.1.str, p.2)).Perm ((attrs b').map fun p => (p.1.str, p.2))) (hb : blocks b = blocks b') :
    deserializeAttr P I ord S (.body b) = .ok v ↔ deserializeAttr P I ord S (.body b') = .ok v := by
  have hmem : ∀ k e, (∃ p ∈ attrs b, p.1.str = k ∧ p.2 = e) ↔ ∃ p ∈ attrs b', p.1.str = k ∧ p.2 = e := by
    intro k e
    have := ha.mem_iff (a := (k, e))
    simpa [List.mem_map] using this
  have hE : ∀ k n, EntryOf b k n ↔ EntryOf b' k n := by
    intro k n
    unfold EntryOf
    rw [hb]
    refine or_congr ?_ Iff.rfl
    constructor
    · rintro ⟨c, e, h1, h2, h3⟩
      obtain ⟨p, h4, h5, h6⟩ := (hmem k e).1 ⟨_, h1, h2, rfl⟩
      exact ⟨p.1, p.2, h4, h5, by rw [h6]; exact h3⟩
    · rintro ⟨c, e, h1, h2, h3⟩
      obtain ⟨p, h4, h5, h6⟩ := (hmem k e).2 ⟨_, h1, h2, rfl⟩
      exact ⟨p.1, p.2, h4, h5, by rw [h6]; exact h3⟩
  have hd : Distinct (attrs b) ↔ Distinct (attrs b') := by
    have := (ha.map Prod.fst).nodup_iff
    simpa [Distinct, List.map_map, Function.comp_def] using this
  have hc : NameClash b ↔ NameClash b' := by
    unfold NameClash
    rw [hb]
    constructor
    · rintro ⟨p, hp, q, hq, h⟩
      obtain ⟨p', h4, h5, -⟩ := (hmem p.1.str p.2).1 ⟨p, hp, rfl, rfl⟩
      exact ⟨p', h4, q, hq, h5.trans h⟩
    · rintro ⟨p, hp, q, hq, h⟩
      obtain ⟨p', h4, h5, -⟩ := (hmem p.1.str p.2).2 ⟨p, hp, rfl, rfl⟩
      exact ⟨p', h4, q, hq, h5.trans h⟩
  rw [c98_body P I ord S hS, c98_body P I ord S hS, hd, hc, readsSpec_congr hE fun _ => Iff.rfl]

/-- C98: a new field that documents do not have yet: they are read as before, with the default of the new field (or `None`) at its
place; if it has neither, they are not read any more. -/
theorem c98_new_field (fs : List FieldSpec) (f : FieldSpec) (deny : Bool) (hS : ProperSpec ⟨fs ++ [f], deny⟩) (b : Body)
    (hb : ∀ k n, EntryOf b k n → k ∉ f.names) (v : DVal) :
    deserializeAttr P I ord ⟨fs ++ [f], deny⟩ (.body b) = .ok v ↔
      ∃ vs d, v = .entries (vs ++ [(f.name, d)]) ∧ deserializeAttr P I ord ⟨fs, deny⟩ (.body b) = .ok (.entries vs) ∧ Absent f d := by
  have hS' : ProperSpec ⟨fs, deny⟩ := by
    unfold ProperSpec at hS ⊢
    rw [List.flatMap_append, List.nodup_append] at hS
    exact hS.1
  rw [c98_body P I ord _ hS]
  have hdecl : ∀ k n, EntryOf b k n → (Declared ⟨fs ++ [f], deny⟩ k ↔ Declared ⟨fs, deny⟩ k) := by
    intro k n hk
    constructor
    · rintro ⟨g, hg, hgk⟩
      rcases List.mem_append.1 hg with hg | hg
      · exact ⟨g, hg, hgk⟩
      · cases List.mem_singleton.1 hg; exact absurd hgk (hb k n hk)
    · rintro ⟨g, hg, hgk⟩
      exact ⟨g, List.mem_append_left _ hg, hgk⟩
  constructor
  · rintro ⟨h1, h2, h3, ⟨vs, rfl, h4⟩, h5⟩
    obtain ⟨vs1, vs2, rfl, h6, h7⟩ := allRel_split h4
    cases h7 with
    | cons _ q _ _ h7 h8 =>
      cases h8
      obtain ⟨qn, d⟩ := q
      obtain ⟨rfl, h7⟩ := h7
      refine ⟨vs1, d, rfl, (c98_body P I ord _ hS' b _).2 ⟨h1, h2, fun g hg => h3 g (List.mem_append_left _ hg),
        ⟨vs1, rfl, h6⟩, fun k n hk hd => h5 k n hk (mt (hdecl k n hk).1 hd)⟩, ?_⟩
      rcases h7 with ⟨k, n, hk, hn, -⟩ | ⟨-, h7⟩
      · exact absurd hk (hb k n hn)
      · exact h7
  · rintro ⟨vs, d, rfl, h, ha⟩
    obtain ⟨h1, h2, h3, ⟨vs', hv, h4⟩, h5⟩ := (c98_body P I ord _ hS' b _).1 h
    cases hv
    refine ⟨h1, h2, fun g hg k n k' n' hk hk' hn hn' => ?_, ⟨_, rfl, allRel_join h4 (.cons _ _ _ _ ⟨rfl, .inr ⟨fun k n hk hn => hb k n hn hk, ha⟩⟩ .nil)⟩,
      fun k n hk hd => h5 k n hk (mt (hdecl k n hk).2 hd)⟩
    rcases List.mem_append.1 hg with hg | hg
    · exact h3 g hg k n k' n' hk hk' hn hn'
    · cases List.mem_singleton.1 hg; exact absurd hk (hb k n hn)

private theorem alias_one (S : StructSpec) (hS : ProperSpec S) (f : FieldSpec) (hf : f ∈ S.fields) (k k' : CowStr)
    (hk : k.str ∈ f.names) (hk' : k'.str ∈ f.names) (e : Expr) (l r : Body) (v : DVal)
    (h : deserializeAttr P I ord S (.body (l ++ .attribute k e :: r)) = .ok v) :
    deserializeAttr P I ord S (.body (l ++ .attribute k' e :: r)) = .ok v := by
  have hat : ∀ x : CowStr, attrs (l ++ .attribute x e :: r) = attrs l ++ (x, e) :: attrs r := fun x => by simp [attrs]
  have hbl : ∀ x : CowStr, blocks (l ++ .attribute x e :: r) = blocks l ++ blocks r := fun x => by simp [blocks]
  obtain ⟨hd, hc, h3, h4, h5⟩ := (c98_body P I ord S hS _ v).1 h
  -- nothing else is there for the field
  have hone : ∀ p, p ∈ attrs l ∨ p ∈ attrs r → p.1.str ∉ f.names := by
    intro p hp hpf
    have hE : EntryOf (l ++ .attribute k e :: r) p.1.str (.expr p.2) := .inl ⟨p.1, p.2, by rw [hat]; rcases hp with hp | hp <;> simp [hp], rfl, rfl⟩
    have hE' : EntryOf (l ++ .attribute k e :: r) k.str (.expr e) := .inl ⟨k, e, by rw [hat]; simp, rfl, rfl⟩
    have heq := h3 f hf _ _ _ _ hpf hk hE hE'
    unfold Distinct at hd
    rw [hat, List.map_append, List.nodup_append, List.map_cons, List.nodup_cons] at hd
    rcases hp with hp | hp
    · exact hd.2.2 _ (List.mem_map.2 ⟨p, hp, rfl⟩) k.str (by simp) heq
    · exact hd.2.1.1 (heq ▸ List.mem_map.2 ⟨p, hp, rfl⟩)
  have hbone : ∀ q ∈ blocks l ++ blocks r, q.type.str ∉ f.names := by
    intro q hq hqf
    obtain ⟨run, hrun⟩ := lastRun_of_mem ⟨q, hq, rfl⟩
    have hE : EntryOf (l ++ .attribute k e :: r) q.type.str _ := .inr ⟨run, by rw [hbl]; exact hrun, rfl⟩
    have hE' : EntryOf (l ++ .attribute k e :: r) k.str (.expr e) := .inl ⟨k, e, by rw [hat]; simp, rfl, rfl⟩
    have heq := h3 f hf _ _ _ _ hqf hk hE hE'
    exact hc ⟨(k, e), by rw [hat]; simp, q, by rw [hbl]; exact hq, heq.symm⟩
  -- the entries
  have hE : ∀ (x : CowStr) j n, EntryOf (l ++ .attribute x e :: r) j n ↔ (j = x.str ∧ n = .expr e) ∨ EntryOf (l ++ r) j n := by
    intro x j n
    unfold EntryOf
    rw [hat, hbl, show attrs (l ++ r) = attrs l ++ attrs r by simp [attrs], show blocks (l ++ r) = blocks l ++ blocks r by simp [blocks]]
    constructor
    · rintro (⟨c, d, h1, h2, h3⟩ | h1)
      · rcases List.mem_append.1 h1 with h1 | h1
        · exact .inr (.inl ⟨c, d, List.mem_append_left _ h1, h2, h3⟩)
        · rcases List.mem_cons.1 h1 with h1 | h1
          · cases h1; exact .inl ⟨h2.symm, h3⟩
          · exact .inr (.inl ⟨c, d, List.mem_append_right _ h1, h2, h3⟩)
      · exact .inr (.inr h1)
    · rintro (⟨rfl, rfl⟩ | ⟨c, d, h1, h2, h3⟩ | h1)
      · exact .inl ⟨x, e, by simp, rfl, rfl⟩
      · refine .inl ⟨c, d, ?_, h2, h3⟩
        rcases List.mem_append.1 h1 with h1 | h1
        · exact List.mem_append_left _ h1
        · exact List.mem_append_right _ (List.mem_cons_of_mem _ h1)
      · exact .inr h1
  have hrest : ∀ j n, EntryOf (l ++ r) j n → j ∉ f.names := by
    rintro j n (⟨c, d, h1, rfl, -⟩ | ⟨run, ⟨pre, post, h1, h2, h6, -⟩, -⟩) hj
    · rw [show attrs (l ++ r) = attrs l ++ attrs r by simp [attrs]] at h1
      exact hone (c, d) (List.mem_append.1 h1) hj
    · rw [show blocks (l ++ r) = blocks l ++ blocks r by simp [blocks]] at h1
      cases run with
      | nil => exact h2 rfl
      | cons q run =>
        have := h6 q (by simp)
        exact hbone q (by rw [h1]; simp) (this ▸ hj)
  -- names of the field identify it
  have hsame : ∀ g ∈ S.fields, ∀ x y, x ∈ f.names → y ∈ f.names → x ∈ g.names → y ∈ g.names := by
    intro g hg x y hx hy hxg
    have : f = g := by
      have := (fieldFor_of_mem hS hf hx).symm.trans (fieldFor_of_mem hS hg hxg)
      injection this
    exact this ▸ hy
  refine (c98_body P I ord S hS _ v).2 ⟨?_, ?_, ?_, ?_, ?_⟩
  · unfold Distinct at hd ⊢
    rw [hat, List.map_append, List.nodup_append, List.map_cons, List.nodup_cons] at hd ⊢
    refine ⟨hd.1, ⟨fun hm => ?_, hd.2.1.2⟩, fun x hx y hy hxy => ?_⟩
    · obtain ⟨p, hp, hpe⟩ := List.mem_map.1 hm
      exact hone p (.inr hp) (by rw [hpe]; exact hk')
    · rcases List.mem_cons.1 hy with rfl | hy
      · obtain ⟨p, hp, hpe⟩ := List.mem_map.1 hx
        exact hone p (.inl hp) (by rw [hpe, hxy]; exact hk')
      · exact hd.2.2 x hx y (List.mem_cons_of_mem _ hy) hxy
  · rintro ⟨p, hp, q, hq, hpq⟩
    rw [hbl] at hq
    rw [hat] at hp
    have hother : p ∈ attrs l ∨ p ∈ attrs r → False := fun hp' =>
      hc ⟨p, by rw [hat]; rcases hp' with h | h <;> simp [h], q, by rw [hbl]; exact hq, hpq⟩
    rcases List.mem_append.1 hp with hp | hp
    · exact hother (.inl hp)
    · rcases List.mem_cons.1 hp with rfl | hp
      · exact hbone q hq (hpq ▸ hk')
      · exact hother (.inr hp)
  · intro g hg j n j' n' hj hj' h1 h2
    rcases (hE k' j n).1 h1 with ⟨rfl, rfl⟩ | h1 <;> rcases (hE k' j' n').1 h2 with ⟨rfl, rfl⟩ | h2
    · rfl
    · exact absurd (by
        have : f = g := by
          have := (fieldFor_of_mem hS hf hk').symm.trans (fieldFor_of_mem hS hg hj)
          injection this
        exact this ▸ hj') (hrest j' n' h2)
    · exact absurd (by
        have : f = g := by
          have := (fieldFor_of_mem hS hf hk').symm.trans (fieldFor_of_mem hS hg hj')
          injection this
        exact this ▸ hj) (hrest j n h1)
    · exact h3 g hg j n j' n' hj hj' ((hE k j n).2 (.inr h1)) ((hE k j' n').2 (.inr h2))
  · obtain ⟨vs, hv, h4⟩ := h4
    refine ⟨vs, hv, h4.imp fun g q hg _ ⟨hq, h6⟩ => ⟨hq, ?_⟩⟩
    rcases h6 with ⟨j, n, hj, hn, hr⟩ | ⟨hno, ha⟩
    · rcases (hE k j n).1 hn with ⟨rfl, rfl⟩ | hn
      · exact .inl ⟨k'.str, _, hsame g hg _ _ hk hk' hj, (hE k' _ _).2 (.inl ⟨rfl, rfl⟩), hr⟩
      · exact .inl ⟨j, n, hj, (hE k' _ _).2 (.inr hn), hr⟩
    · refine .inr ⟨fun j n hj hn => ?_, ha⟩
      rcases (hE k' j n).1 hn with ⟨rfl, rfl⟩ | hn
      · exact hno k.str _ (hsame g hg _ _ hk' hk hj) ((hE k _ _).2 (.inl ⟨rfl, rfl⟩))
      · exact hno j n hj ((hE k _ _).2 (.inr hn))
  · intro j n hn hdj
    rcases (hE k' j n).1 hn with ⟨rfl, rfl⟩ | hn
    · exact absurd ⟨f, hf, hk'⟩ hdj
    · exact h5 j n ((hE k _ _).2 (.inr hn)) hdj

/-- C98: it does not matter which of the names of a field an attribute has: its own or an alias. -/
theorem c98_alias (S : StructSpec) (hS : ProperSpec S) (f : FieldSpec) (hf : f ∈ S.fields) (k k' : CowStr)
    (hk : k.str ∈ f.names) (hk' : k'.str ∈ f.names) (e : Expr) (l r : Body) (v : DVal) :
    deserializeAttr P I ord S (.body (l ++ .attribute k e :: r)) = .ok v ↔
      deserializeAttr P I ord S (.body (l ++ .attribute k' e :: r)) = .ok v :=
  ⟨alias_one P I ord S hS f hf k k' hk hk' e l r v, alias_one P I ord S hS f hf k' k hk' hk e l r v⟩

/-- C98: reading always ends, if reading the fields does. -/
theorem c98_terminates (S : StructSpec) (hr : ∀ f ∈ S.fields, ∀ n, f.read n ≠ .diverge) (n : Node) :
    deserializeAttr P I ord S n ≠ .diverge := by
  have hrun : ∀ a : MapAcc, ((attrLoop S (deserialize P I ord .ignored) (a.remaining + 1) a []).bind fun found =>
      (fillFields found S.fields).map DVal.entries) ≠ .diverge := by
    intro a
    obtain ⟨es, s, hD, -⟩ := drains_exists a
    rw [attrLoop_eq hD (Nat.lt_succ_self _)]
    have := runAttrs_diverge (S := S) (s := s) (es := es) (found := []) (c56_terminates P I ord .ignored) hr
    cases hx : runAttrs S (deserialize P I ord .ignored) es s [] with
    | ok found =>
      rcases fillFields_cases (found := found) (fs := S.fields) with ⟨vs, h⟩ | h <;> simp [Res.bind, Res.map, h]
    | diverge => exact absurd hx this
    | error e => simp [Res.bind]
    | panic => simp [Res.bind]
  have hseq : ∀ ns, seqFields S.fields ns ≠ .diverge := fun ns => seqFields_diverge hr
  unfold deserializeAttr
  cases hn : n.deserialize P ord .forward with
  | ok c =>
    cases c
    case mapObject a => exact hrun (.object a)
    case mapBody a => exact hrun (.body a)
    case seq ns =>
      show (seqFields S.fields ns).map DVal.entries ≠ .diverge
      have := hseq ns
      cases hx : seqFields S.fields ns <;> simp_all [Res.map, Res.bind]
    all_goals simp [Res.bind]
  | error e => simp [Res.bind]
  | panic => simp [Res.bind]
  | diverge =>
    have := c56_terminates P I ord (.struct []) n
    rw [deserialize_eq, show (Ty.struct []).hint = .forward from rfl, hn] at this
    exact absurd rfl this

/-- C98: `from_str` into a struct with attributes: the parser's error, or the outcome for the body. -/
theorem c98_from_str (U : CharClass) (S : StructSpec) (s : Str) :
    (∀ v, deFromStrAttr U P I ord S s = .ok v ↔ ∃ b, parseStr U s = .ok b ∧ deserializeAttr P I ord S (.body b) = .ok v) ∧
    (∀ e, parseStr U s = .error e → deFromStrAttr U P I ord S s = .error (.parse e)) ∧
    ((∀ f ∈ S.fields, ∀ n, f.read n ≠ .diverge) → deFromStrAttr U P I ord S s ≠ .diverge) := by
  unfold deFromStrAttr
  cases h : parseStr U s with
  | ok b => exact ⟨fun v => ⟨fun h => ⟨b, rfl, h⟩, fun ⟨_, h1, h2⟩ => by cases h1; exact h2⟩, fun e he => (by cases he),
      fun hr => c98_terminates P I ord S hr _⟩
  | error e => exact ⟨fun v => ⟨nofun, fun ⟨_, h1, _⟩ => by cases h1⟩, fun e he => (by cases he; rfl), fun _ => nofun⟩
  | panic => exact ⟨fun v => ⟨nofun, fun ⟨_, h1, _⟩ => by cases h1⟩, fun e he => (by cases he), fun _ => nofun⟩
  | diverge => exact absurd h (parseStr_not_diverge s)

/-- C98: a block without labels: one is read like its body, several by position; one with labels panics. -/
theorem c98_block (S : StructSpec) (b : Body) (bs : List Body) (h : bs.length ≠ 1) :
    deserializeAttr P I ord S (.block (.body [b])) = deserializeAttr P I ord S (.body b) ∧
    deserializeAttr P I ord S (.block (.body bs)) = (seqFields S.fields (bs.map .body)).map .entries := by
  refine ⟨rfl, ?_⟩
  match bs, h with
  | [], _ => rfl
  | _ :: _ :: _, _ => rfl

end

end Verif.Props
