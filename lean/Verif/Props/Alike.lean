import Verif.Proofs.AlikeSymm
import Verif.Props.Reads
import Verif.Props.Sources
/-!
# Deserialization does not depend on order and ownership: C69

`Spec/Alike.lean`: alike nodes differ only in the order of attributes and object elements, in how attributes and blocks
are mixed, and in ownership of strings.
-/
set_option autoImplicit false

namespace Verif.Props
open Verif Spec

section
variable (P : F64Parse) (I : F64OfInt) (ord ord' : HashOrder)

/-- C69: alike nodes deserialize to the same value, or both fail: in any order of attributes and elements, any hash order,
and whatever the ownership of strings if the type does not contain `&str`. -/
theorem c69_alike (keep : Bool) (t : Ty) (ht : ProperTy t) (hs : keep = true ∨ StrFree t) (n n' : Node) (ha : Alike P keep n n')
    (v : DVal) (h : deserialize P I ord t n = .ok v) : ∃ v', deserialize P I ord' t n' = .ok v' ∧ SameVal v v' := by
  obtain ⟨w, h1, h2⟩ := reads_alike (c68_deserialized_is_read P I ord t ht n v h) hs ha
  obtain ⟨v', h3, h4⟩ := c68_read_is_deserialized P I ord' t ht n' w h1
  exact ⟨v', h3, sameVal_trans h2 h4⟩

/-- C69: so one of two alike nodes can be read as a type exactly if the other can. -/
theorem c69_both_or_neither (keep : Bool) (t : Ty) (ht : ProperTy t) (hs : keep = true ∨ StrFree t) (n n' : Node)
    (ha : Alike P keep n n') : (∃ v, deserialize P I ord t n = .ok v) ↔ ∃ v, deserialize P I ord' t n' = .ok v :=
  ⟨fun ⟨v, h⟩ => (c69_alike P I ord ord' keep t ht hs n n' ha v h).imp fun _ h => h.1,
    fun ⟨v, h⟩ => (c69_alike P I ord' ord keep t ht hs n' n ha.symm v h).imp fun _ h => h.1⟩

/-- C69: being alike is an equivalence on expressions and bodies. -/
theorem c69_alike_equivalence (keep : Bool) :
    ((∀ e, Alike P keep (.expr e) (.expr e)) ∧ ∀ b, Alike P keep (.body b) (.body b)) ∧
    (∀ n n', Alike P keep n n' → Alike P keep n' n) ∧
    (∀ e e' e'', Alike P keep (.expr e) (.expr e') → Alike P keep (.expr e') (.expr e'') → Alike P keep (.expr e) (.expr e'')) ∧
    ∀ b b' b'', Alike P keep (.body b) (.body b') → Alike P keep (.body b') (.body b'') → Alike P keep (.body b) (.body b'') :=
  ⟨⟨alike_refl_expr keep, alike_refl_body keep⟩, fun _ _ h => h.symm, fun _ _ _ h h' => h.trans h' (by intro c h; cases h),
    fun _ _ _ h h' => h.trans h' (by intro c h; cases h)⟩

/-- C69: the order of attributes and how they are mixed with blocks does not matter, for any type. -/
theorem c69_attribute_order (t : Ty) (ht : ProperTy t) (b b' : Body) (ha : (attrs b).Perm (attrs b')) (hb : blocks b = blocks b')
    (v : DVal) (h : deserialize P I ord t (.body b) = .ok v) :
    ∃ v', deserialize P I ord' t (.body b') = .ok v' ∧ SameVal v v' :=
  c69_alike P I ord ord' true t ht (.inl rfl) _ _ (alike_of_perm true ha hb) v h

/-- C69: nor does it matter how blocks of different types are mixed, as long as the last run of every type is the same. -/
theorem c69_regrouped (t : Ty) (ht : ProperTy t) (b b' : Body) (ha : (attrs b).Perm (attrs b')) (hb : Regrouped (blocks b) (blocks b'))
    (v : DVal) (h : deserialize P I ord t (.body b) = .ok v) :
    ∃ v', deserialize P I ord' t (.body b') = .ok v' ∧ SameVal v v' :=
  c69_alike P I ord ord' true t ht (.inl rfl) _ _ (alike_of_regrouped true ha hb) v h

/-- C69: in particular, if the blocks of each type stay together and in order, the types can be in any order. -/
theorem c69_block_types_order (t : Ty) (ht : ProperTy t) (b b' : Body) (ha : (attrs b).Perm (attrs b'))
    (hb : TypesAdjacent (blocks b)) (hb' : TypesAdjacent (blocks b'))
    (he : ∀ k, (blocks b).filter (fun q => decide (q.type.str = k)) = (blocks b').filter fun q => decide (q.type.str = k))
    (v : DVal) (h : deserialize P I ord t (.body b) = .ok v) :
    ∃ v', deserialize P I ord' t (.body b') = .ok v' ∧ SameVal v v' :=
  c69_regrouped P I ord ord' t ht b b' ha (regrouped_adjacent hb hb' he) v h

/-- C69: the order of the elements of an object does not matter. -/
theorem c69_object_order (t : Ty) (ht : ProperTy t) (o o' : List (ObjKey × Expr)) (ho : o.Perm o')
    (v : DVal) (h : deserialize P I ord t (.expr (.object o)) = .ok v) :
    ∃ v', deserialize P I ord' t (.expr (.object o')) = .ok v' ∧ SameVal v v' := by
  refine c69_alike P I ord ord' true t ht (.inl rfl) _ _ (.object o o o' rfl ?_ ho) v h
  exact (alike_object o o rfl fun _ => rfl).2

/-- C69: bodies that are equal up to ownership deserialize to the same value, unless the type contains `&str`. -/
theorem c69_ownership (t : Ty) (ht : ProperTy t) (hs : StrFree t) (b b' : Body) (hb : forgetBody b = forgetBody b')
    (v : DVal) (h : deserialize P I ord t (.body b) = .ok v) :
    ∃ v', deserialize P I ord' t (.body b') = .ok v' ∧ SameVal v v' :=
  c69_alike P I ord ord' false t ht (.inr hs) _ _ (alike_body hb) v h

/-- C69: in particular after `as_owned`, in both directions. -/
theorem c69_as_owned (t : Ty) (ht : ProperTy t) (hs : StrFree t) (b : Body) :
    (∀ v, deserialize P I ord t (.body b) = .ok v → ∃ v', deserialize P I ord' t (.body b.asOwned) = .ok v' ∧ SameVal v v') ∧
    (∀ v, deserialize P I ord t (.body b.asOwned) = .ok v → ∃ v', deserialize P I ord' t (.body b) = .ok v' ∧ SameVal v v') :=
  ⟨c69_ownership P I ord ord' t ht hs _ _ (c19_same_tree b).symm, c69_ownership P I ord ord' t ht hs _ _ (c19_same_tree b)⟩

/-- C69: `&str` fields cannot be read from an owned body: a struct with such a field fails whenever the entry is there. -/
theorem c69_str_needs_borrowed (b : Body) (k : Str) (n : Node) (hn : EntryOf b.asOwned k n) (v : DVal) :
    deserialize P I ord .str n ≠ .ok v := by
  intro h
  obtain ⟨s, rfl, -⟩ := (c68_str P I ord n v).1 h
  rcases hn with ⟨k', e, hm, -, he⟩ | ⟨run, -, he⟩
  · injection he with he
    subst he
    have : ∀ b : List BodyElement, (k', Expr.string (.borrowed s)) ∉ attrs (BodyElement.asOwnedList b) := by
      intro b
      induction b with
      | nil => simp [BodyElement.asOwnedList, attrs]
      | cons x b ih =>
        cases x with
        | «attribute» k e =>
          simp only [BodyElement.asOwnedList, BodyElement.asOwned, attrs, List.filterMap_cons, List.mem_cons, not_or] at ih ⊢
          refine ⟨fun h => ?_, ih⟩
          injection h with _ h
          cases e <;> simp [Expr.asOwned, CowStr.asOwned, CowStr.borrowed, CowStr.ownedS] at h
        | block t ls c =>
          simpa only [BodyElement.asOwnedList, BodyElement.asOwned, attrs, List.filterMap_cons] using ih
    exact this b hm
  · cases he

/-- C69: what `from_str` gives and what deserializing the body from `parse_reader` gives are the same, unless the type
contains `&str`. -/
theorem c69_reader (U : CharClass) (t : Ty) (ht : ProperTy t) (hs : StrFree t) (es : List ReadEvent) (b : Body)
    (hr : parseReader U es = .ok b) : ∃ s, Delivers es (some (utf8 s)) ∧
      (∀ v, deFromStr U P I ord t s = .ok v → ∃ v', deserialize P I ord' t (.body b) = .ok v' ∧ SameVal v v') ∧
      (∀ v, deserialize P I ord t (.body b) = .ok v → ∃ v', deFromStr U P I ord' t s = .ok v' ∧ SameVal v v') := by
  obtain ⟨s, b', hd, hp, rfl⟩ := (c18_parse_reader U es b).1 hr
  have hf : ∀ o, deFromStr U P I o t s = deserialize P I o t (.body b') := fun o => by unfold deFromStr; rw [hp]
  refine ⟨s, hd, fun v h => ?_, fun v h => ?_⟩
  · rw [hf] at h; exact (c69_as_owned P I ord ord' t ht hs b').1 v h
  · rw [hf]; exact (c69_as_owned P I ord ord' t ht hs b').2 v h

/-- C69: texts whose trees are alike are deserialized alike; layout, comments and the order of attributes do not
matter. -/
theorem c69_from_str (U : CharClass) (keep : Bool) (t : Ty) (ht : ProperTy t) (hs : keep = true ∨ StrFree t) (s s' : Str)
    (b b' : Body) (hb : parseStr U s = .ok b) (hb' : parseStr U s' = .ok b') (ha : Alike P keep (.body b) (.body b'))
    (v : DVal) (h : deFromStr U P I ord t s = .ok v) : ∃ v', deFromStr U P I ord' t s' = .ok v' ∧ SameVal v v' := by
  unfold deFromStr at h ⊢
  rw [hb] at h; rw [hb']
  exact c69_alike P I ord ord' keep t ht hs _ _ ha v h

/-- C69: two documents of which one has no blocks can be joined in either order. -/
theorem c69_join_commutes (U : CharClass) (t : Ty) (ht : ProperTy t) (s s' : Str) (a b : Body) (ha : parseStr U s = .ok a)
    (hb : parseStr U s' = .ok b) (hn : blocks b = []) (v : DVal) :
    (deFromStr U P I ord t (s ++ '\n' :: s') = .ok v → ∃ v', deFromStr U P I ord' t (s' ++ '\n' :: s) = .ok v' ∧ SameVal v v') ∧
    (deFromStr U P I ord t (s' ++ '\n' :: s) = .ok v → ∃ v', deFromStr U P I ord' t (s ++ '\n' :: s') = .ok v' ∧ SameVal v v') := by
  have h1 := c16_concat U s s' a b ha hb
  have h2 := c16_concat U s' s b a hb ha
  have hat : ∀ x y : Body, attrs (x ++ y) = attrs x ++ attrs y := fun x y => List.filterMap_append
  have hbl : ∀ x y : Body, blocks (x ++ y) = blocks x ++ blocks y := fun x y => List.filterMap_append
  have hp : (attrs (a ++ b)).Perm (attrs (b ++ a)) := by rw [hat, hat]; exact List.perm_append_comm
  have hq : blocks (a ++ b) = blocks (b ++ a) := by rw [hbl, hbl, hn]; simp
  exact ⟨c69_from_str P I ord ord' U true t ht (.inl rfl) _ _ _ _ h1 h2 (alike_of_perm true hp hq) v,
    c69_from_str P I ord ord' U true t ht (.inl rfl) _ _ _ _ h2 h1 (alike_of_perm true hp.symm hq.symm) v⟩

end

/-! ## equality up to the order of map entries -/

/-- C69: "the same up to the order of map entries" is an equivalence. -/
theorem c69_same_equivalence : (∀ v : DVal, SameVal v v) ∧ (∀ v w : DVal, SameVal v w → SameVal w v) ∧
    ∀ u v w : DVal, SameVal u v → SameVal v w → SameVal u w :=
  ⟨.refl, fun _ _ => sameVal_symm, fun _ _ _ => sameVal_trans⟩

/-! ## samples -/

/-- a body with its attributes after the blocks and in another order -/
example (P : F64Parse) (I : F64OfInt) (ord : HashOrder) :
    ∃ v, deserialize P I ord sampleTy (.body [bel "c" "1", bel "c" "2", att "z" "y", att "a" "x"]) = .ok v ∧
      SameVal (.entries [("a".toList, .string "x".toList), ("b".toList, .none),
      ("c".toList, .seq [.entries [("v".toList, .string "1".toList)], .entries [("v".toList, .string "2".toList)]])]) v :=
  c69_attribute_order P I ord0 ord _ sampleTy_proper sampleBody _ (by simp [attrs, List.Perm.swap]) (by simp [blocks]) _
    (sample_result P I)

/-- and it can be read as no type as which the other cannot -/
example (P : F64Parse) (I : F64OfInt) (ord : HashOrder) : ¬ ∃ v, deserialize P I ord (.struct [("a".toList, .bool)])
    (.body [bel "c" "1", bel "c" "2", att "z" "y", att "a" "x"]) = .ok v := by
  refine (not_congr (c69_both_or_neither P I ord0 ord true (.struct [("a".toList, .bool)]) ?_ (.inl rfl) (.body sampleBody) _
    (alike_of_perm true (by simp [attrs, List.Perm.swap]) (by simp [blocks])))).1 ?_
  · refine .struct _ (by decide) ?_
    intro f hf
    simp only [List.mem_cons, List.not_mem_nil, or_false] at hf
    subst hf; exact .bool
  · rintro ⟨v, h⟩; cases h

/-- types in another order -/
example : Regrouped (blocks [bel "c" "1", bel "c" "2", bel "d" "3"]) (blocks [bel "d" "3", bel "c" "1", bel "c" "2"]) := by
  refine regrouped_adjacent ?_ ?_ ?_
  · intro pre a mid c post h he b hb
    have hlen := congrArg List.length h
    simp [blocks] at hlen
    match pre, mid with
    | [], [] => cases hb
    | [], [m] =>
      simp only [blocks, List.filterMap_cons, List.filterMap_nil, List.nil_append, List.cons_append, List.cons.injEq] at h
      obtain ⟨rfl, rfl, rfl, -⟩ := h
      exact absurd he (by decide)
    | [p], [] => cases hb
    | [], _ :: _ :: _ => simp at hlen; omega
    | [_], _ :: _ => simp at hlen; omega
    | _ :: _ :: _, _ => simp at hlen; omega
  · intro pre a mid c post h he b hb
    have hlen := congrArg List.length h
    simp [blocks] at hlen
    match pre, mid with
    | [], [] => cases hb
    | [], [m] =>
      simp only [blocks, List.filterMap_cons, List.filterMap_nil, List.nil_append, List.cons_append, List.cons.injEq] at h
      obtain ⟨rfl, rfl, rfl, -⟩ := h
      exact absurd he (by decide)
    | [p], [] => cases hb
    | [], _ :: _ :: _ => simp at hlen; omega
    | [_], _ :: _ => simp at hlen; omega
    | _ :: _ :: _, _ => simp at hlen; omega
  · intro k
    simp only [blocks, List.filterMap_cons, List.filterMap_nil]
    by_cases h1 : "c".toList = k
    · subst h1; rfl
    · by_cases h2 : "d".toList = k
      · subst h2; rfl
      · simp [show ¬ (['c'] : Str) = k from h1, show ¬ (['d'] : Str) = k from h2, CowStr.borrowed]

example : StrFree sampleTy := by
  refine .struct _ ?_
  intro f hf
  simp only [List.mem_cons, List.not_mem_nil, or_false] at hf
  rcases hf with rfl | rfl | rfl
  · exact .string
  · exact .option _ .bool
  · refine .seq _ (.struct _ ?_)
    intro f hf
    simp only [List.mem_cons, List.not_mem_nil, or_false] at hf
    subst hf; exact .string

/-- C69: the order of blocks does matter. -/
theorem c69_block_order_matters (P : F64Parse) (I : F64OfInt) :
    ∃ (t : Ty) (b b' : Body) (v v' : DVal), ProperTy t ∧ (attrs b).Perm (attrs b') ∧ (blocks b).Perm (blocks b') ∧
      deserialize P I ord0 t (.body b) = .ok v ∧ deserialize P I ord0 t (.body b') = .ok v' ∧ ¬ SameVal v v' := by
  refine ⟨.struct [("c".toList, .seq (.struct [("v".toList, .string)]))], [bel "c" "1", bel "c" "2"], [bel "c" "2", bel "c" "1"],
    .entries [("c".toList, .seq [.entries [("v".toList, .string "1".toList)], .entries [("v".toList, .string "2".toList)]])],
    .entries [("c".toList, .seq [.entries [("v".toList, .string "2".toList)], .entries [("v".toList, .string "1".toList)]])],
    ?_, ?_, ?_, ?_, ?_, ?_⟩
  · refine .struct _ (by decide) ?_
    intro f hf
    simp only [List.mem_cons, List.not_mem_nil, or_false] at hf
    subst hf
    refine .seq _ (.struct _ (by decide) ?_)
    intro f hf
    simp only [List.mem_cons, List.not_mem_nil, or_false] at hf
    subst hf; exact .string
  · simp [attrs]
  · simp only [blocks, List.filterMap_cons, List.filterMap_nil]; exact .swap _ _ _
  · rw [deserialize, deN_fuel P I ord0 _ _ _ _ 100000 (Nat.lt_succ_self _) (Nat.lt_succ_self _)]
    · rfl
    · decide +kernel
  · rw [deserialize, deN_fuel P I ord0 _ _ _ _ 100000 (Nat.lt_succ_self _) (Nat.lt_succ_self _)]
    · rfl
    · decide +kernel
  · intro h
    obtain ⟨es', es'', h1, h2, h3⟩ := sameVal_entries_iff h
    cases h1
    have := List.perm_singleton.1 h3
    subst this
    cases h2 with
    | cons _ _ _ _ hs _ =>
      have hs := hs.2
      cases hs with
      | seq _ _ _ hz =>
        have hz := hz _ (List.mem_cons_self ..)
        obtain ⟨fs', fs'', h1, h2, h3⟩ := sameVal_entries_iff hz
        cases h1
        have := List.perm_singleton.1 h3
        subst this
        cases h2 with
        | cons _ _ _ _ hs _ => 
          have := hs.2
          cases this

end Verif.Props
