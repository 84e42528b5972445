import Verif.Proofs.FailureOrder
import Verif.Props.Reads
/-!
# Which failure deserialization reports: C88

`Spec/Failure.lean` says which failure is reported, without visitors and calls; the order of block types is left open.
-/
set_option autoImplicit false

namespace Verif.Props
open Verif Spec

section
variable (P : F64Parse) (I : F64OfInt) (ord : HashOrder)

/-- C88: the failures that deserialization reports for some order of the hash maps are those of the rules. -/
theorem c88_failures (t : Ty) (ht : ProperTy t) (n : Node) (f : Failure) :
    (∃ ord : HashOrder, deserialize P I ord t n = f.res) ↔ Fails P I BlockEntries t n f := by
  constructor
  · rintro ⟨ord, h⟩
    exact fails_mono (fun _ _ => orderOf_entries) (fun _ _ => orderOf_entries) (res_fails ord _ t n f (Nat.lt_succ_self _) ht h)
  · intro h
    obtain ⟨ord, h⟩ := fails_order h
    exact ⟨ord, fails_res ord h ht⟩

/-- C88: deserialization, in any order, gives a value as in `Reads` or a failure as in `Fails`. -/
theorem c88_outcomes (t : Ty) (ht : ProperTy t) (n : Node) :
    (∃ v, deserialize P I ord t n = .ok v ∧ Reads P I t n v) ∨
      ∃ f : Failure, deserialize P I ord t n = f.res ∧ Fails P I BlockEntries t n f := by
  have key : ∀ f : Failure, deserialize P I ord t n = f.res → Fails P I BlockEntries t n f :=
    fun f h => (c88_failures P I t ht n f).1 ⟨ord, h⟩
  cases h : deserialize P I ord t n with
  | ok v => exact .inl ⟨v, rfl, c68_deserialized_is_read P I ord t ht n v h⟩
  | error e => exact .inr ⟨.error e, rfl, key _ h⟩
  | panic => exact .inr ⟨.panic, rfl, key _ h⟩
  | diverge => exact absurd h (c56_terminates P I ord t n)

/-- C88: what can be read does not fail, whatever the order; and what cannot be read fails. -/
theorem c88_reads_xor_fails (t : Ty) (ht : ProperTy t) (n : Node) :
    (∃ f, Fails P I BlockEntries t n f) ↔ ¬ ∃ v, Reads P I t n v := by
  constructor
  · rintro ⟨f, h⟩ ⟨v, hv⟩
    obtain ⟨ord, h⟩ := (c88_failures P I t ht n f).2 h
    obtain ⟨v', hv', -⟩ := c68_read_is_deserialized P I ord t ht n v hv
    rw [h] at hv'
    exact res_ne_ok hv'
  · intro h
    rcases c88_outcomes P I ord0 t ht n with ⟨v, -, hv⟩ | ⟨f, -, hf⟩
    · exact absurd ⟨v, hv⟩ h
    · exact ⟨f, hf⟩

/-- C88: an expression fails in one way, whatever the order. -/
theorem c88_expression (t : Ty) (ht : ProperTy t) (e : Expr) (f : Failure) :
    deserialize P I ord t (.expr e) = f.res ↔ Fails P I BlockEntries t (.expr e) f := by
  constructor
  · exact fun h => (c88_failures P I t ht _ f).1 ⟨ord, h⟩
  · intro h
    refine fails_res ord (fails_transfer (k := 0) (fun _ _ h => h) (fun b bs hb => ?_) h (Nat.le_refl _)) ht
    have : 0 < sizeOf b := by cases b <;> simp <;> omega
    omega

/-- C88: and so does a body without blocks. -/
theorem c88_no_blocks (t : Ty) (ht : ProperTy t) (b : Body) (hb : blocks b = []) (f : Failure) :
    deserialize P I ord t (.body b) = f.res ↔ Fails P I BlockEntries t (.body b) f := by
  constructor
  · exact fun h => (c88_failures P I t ht _ f).1 ⟨ord, h⟩
  · intro h
    cases h with
    | body _ _ es s _ hv hm =>
      have ho : ∀ bs, BlockEntries b bs → OrderOf ord b bs := by
        intro bs h
        obtain ⟨l, hl, rfl⟩ := blockEntries_lift h
        rw [OrderOf, hb]
        rw [hb] at hl
        have h1 : l = [] := List.Perm.eq_nil hl
        have h2 : ord.order (Blocks.new []) = [] := List.Perm.eq_nil (ord.perm _)
        rw [h1, h2]; rfl
      have hs : ∀ p ∈ es, p.2.bodySize ≤ 0 := by
        intro p hp
        have := bodyVisit_size (fun _ _ h => h) hv p hp
        rwa [hb] at this
      refine fails_res ord (.body t b es s f (bodyVisit_mono ho hv)
        (failsMap_transfer (k := 0) (fun _ _ h => h) (fun b bs hb => ?_) hm hs)) ht
      have : 0 < sizeOf b := by cases b <;> simp <;> omega
      omega

/-- C88: `from_str` fails like the parser if that fails, and like the body that was parsed otherwise. -/
theorem c88_from_str (U : CharClass) (t : Ty) (ht : ProperTy t) (s : Str) (f : Failure) :
    (∃ ord : HashOrder, deFromStr U P I ord t s = f.res) ↔
      (∃ e, parseStr U s = .error e ∧ f = .error (.parse e)) ∨ (parseStr U s = .panic ∧ f = .panic) ∨
        ∃ b, parseStr U s = .ok b ∧ Fails P I BlockEntries t (.body b) f := by
  have h0 := c03_parse_str_terminates U s
  unfold deFromStr
  cases h : parseStr U s with
  | ok b =>
    simp only [reduceCtorEq, false_and, exists_const, false_or, Res.ok.injEq, exists_eq_left', exists_false]
    exact c88_failures P I t ht _ f
  | error e =>
    simp only [error_res, Res.error.injEq, exists_eq_left', reduceCtorEq, false_and, exists_false, or_false]
    exact ⟨fun ⟨_, h⟩ => h, fun h => ⟨ord0, h⟩⟩
  | panic =>
    simp only [panic_res, reduceCtorEq, false_and, exists_false, or_false, true_and, false_or]
    exact ⟨fun ⟨_, h⟩ => h, fun h => ⟨ord0, h⟩⟩
  | diverge => exact absurd h h0

/-! ### what this says about attributes -/

/-- the types that documents are read as -/
theorem mapTy_entry {t : Ty} (hm : (∃ fs, t = .struct fs) ∨ (∃ t', t = .map t') ∨ t = .ignored ∨ t = .any) (k : Str) :
    ∃ u, entryTy t k = some u := by
  rcases hm with ⟨_, rfl⟩ | ⟨_, rfl⟩ | rfl | rfl <;> exact ⟨_, rfl⟩

/-- C88: the attributes before the first repeated name can be read: the repeated name is reported, whatever else is wrong
with the rest of the body, its blocks and the fields of the type. -/
theorem c88_repeated_attribute (t : Ty) (ht : ProperTy t)
    (hm : (∃ fs, t = .struct fs) ∨ (∃ t', t = .map t') ∨ t = .ignored ∨ t = .any) (b : Body) (l rest : List (CowStr × Expr)) (k : CowStr)
    (e : Expr) (hb : attrs b = l ++ (k, e) :: rest) (hd : Distinct l) (hk : k.str ∈ l.map fun p => p.1.str)
    (hl : ∀ p ∈ l, ∀ u, entryTy t p.1.str = some u → ∃ v, Reads P I u (.expr p.2) v) :
    deserialize P I ord t (.body b) = .error (.bodyDuplicateKey k.str) := by
  refine fails_res ord (F := .error (.bodyDuplicateKey k.str)) (.body t b _ _ _ (.again b l rest k e hb hd (by rwa [attr_names])) ?_) ht
  obtain ⟨u, hu⟩ := mapTy_entry hm k.str
  refine .stop t (attrEntries l) (.error (.bodyDuplicateKey k.str)) ⟨k.str, u, hu⟩ fun p hp u hu => ?_
  obtain ⟨q, hq, rfl⟩ := List.mem_map.1 hp
  exact hl q hq u hu

/-- C88: the attributes before one that fails can be read and are distinct from each other and from it: its failure is
reported, whatever comes after it, in the body or in the type. -/
theorem c88_first_attribute (t u : Ty) (ht : ProperTy t) (b : Body) (l rest : List (CowStr × Expr)) (k : CowStr)
    (e : Expr) (hb : attrs b = l ++ (k, e) :: rest) (hd : Distinct (l ++ [(k, e)]))
    (hl : ∀ p ∈ l, ∀ u, entryTy t p.1.str = some u → ∃ v, Reads P I u (.expr p.2) v) (hu : entryTy t k.str = some u)
    (f : Failure) (hf : deserialize P I ord u (.expr e) = f.res) :
    deserialize P I ord t (.body b) = f.res := by
  have hf' := res_fails ord _ u (.expr e) f (Nat.lt_succ_self _) (entry_proper hu ht).1 hf
  obtain ⟨es, s, -, hv⟩ := body_visit ord b
  generalize named es = es at hv
  have hpre : ∃ more, es = attrEntries l ++ (k.str, .expr e) :: more := by
    cases hv with
    | all bs hd' ho hn => rw [hb]; exact ⟨attrEntries rest ++ bs, by simp [attrEntries]⟩
    | clash bs r' k' n hd' ho hn hk => rw [hb]; exact ⟨attrEntries rest ++ bs, by simp [attrEntries]⟩
    | again l' rest' k' e' hb' hd' hk' =>
      rw [hb] at hb'
      have hne : ¬ l'.length ≤ l.length := by
        intro hle
        have hp : l' ++ [(k', e')] <+: l ++ [(k, e)] := by
          have h1 : l' ++ [(k', e')] <+: l ++ (k, e) :: rest := ⟨rest', by rw [hb']; simp⟩
          have h2 : l ++ [(k, e)] <+: l ++ (k, e) :: rest := ⟨rest, by simp⟩
          exact List.prefix_of_prefix_length_le h1 h2 (by simp; omega)
        obtain ⟨r, hr⟩ := hp
        rw [← hr, Distinct, List.append_assoc, List.map_append, List.nodup_append] at hd
        refine hd.2.2 k'.str (by rwa [attr_names] at hk') k'.str (by simp) rfl
      have hp : l ++ [(k, e)] <+: l' := by
        have h1 : l' <+: l ++ (k, e) :: rest := ⟨_, hb'.symm⟩
        have h2 : l ++ [(k, e)] <+: l ++ (k, e) :: rest := ⟨rest, by simp⟩
        exact List.prefix_of_prefix_length_le h2 h1 (by simp; omega)
      obtain ⟨r, rfl⟩ := hp
      exact ⟨attrEntries r, by simp [attrEntries]⟩
  obtain ⟨more, he⟩ := hpre
  rw [he] at hv
  refine fails_res ord (.body t b _ s f hv (.entry t u (attrEntries l) more k.str (.expr e) s f hu ?_ hf')) ht
  intro p hp u hu
  obtain ⟨q, hq, rfl⟩ := List.mem_map.1 hp
  exact hl q hq u hu

/-- C88: a missing field is only reported if everything that is there can be read: then the error is serde's, whatever the
order. -/
theorem c88_missing_field (fs : List (Str × Ty)) (ht : ProperTy (.struct fs)) (b : Body) (hd : Distinct (attrs b))
    (hc : ¬ NameClash b) (hr : ∀ k n, EntryOf b k n → ∃ v, Reads P I ((field? k fs).getD .ignored) n v) (k : Str) (t : Ty)
    (hk : (k, t) ∈ fs) (hm : ∀ n, ¬ EntryOf b k n) (ho : ∀ t', t ≠ .option t') :
    deserialize P I ord (.struct fs) (.body b) = .error .custom := by
  have hb : BlockEntries b ((ord.order (Blocks.new (blocks b))).map blockEntry) := orderOf_entries (ord := ord) rfl
  have hE : ∀ p ∈ attrEntries (attrs b) ++ (ord.order (Blocks.new (blocks b))).map blockEntry, EntryOf b p.1 p.2 := by
    intro p hp
    rcases List.mem_append.1 hp with hp | hp
    · obtain ⟨q, hq, rfl⟩ := List.mem_map.1 hp
      exact .inl ⟨q.1, q.2, hq, rfl, rfl⟩
    · exact .inr ((hb.2 p.1 p.2).1 hp)
  refine fails_res ord (F := .error .custom) (.body _ b _ _ _ (.all b _ hd rfl fun p hp hp' => hc ?_)
    (.missing fs _ k t ?_ hk ?_ ho)) ht
  · obtain ⟨run, ⟨pre, post, he, hne, hty, -⟩, -⟩ := (hb.2 p.1 p.2).1 hp
    obtain ⟨q, hq⟩ := List.exists_mem_of_ne_nil _ hne
    rw [attr_names] at hp'
    obtain ⟨a, ha, hap⟩ := List.mem_map.1 hp'
    exact ⟨a, ha, q, by rw [he]; simp [hq], hap.trans (hty q hq).symm⟩
  · intro p hp u hu
    cases hu
    exact hr p.1 p.2 (hE p hp)
  · intro hk'
    obtain ⟨p, hp, rfl⟩ := List.mem_map.1 hk'
    exact hm p.2 (hE p hp)

end

/-! ## samples -/

/-- an integer that is too large for `i64` -/
abbrev bigNumber : Number := ⟨.borrowed "99999999999999999999".toList, true, some (.borrowed "99999999999999999999".toList), none, none⟩

/-- `b = "x"`, then `a` is too large, then `b` again; there is no `c` -/
abbrev badBody : Body := [.attribute (.borrowed "b".toList) (.string (.borrowed "x".toList)),
  .attribute (.borrowed "a".toList) (.number bigNumber), .attribute (.borrowed "b".toList) (.boolean true)]

/-- `b` twice, then `a` is too large; there is no `c` -/
abbrev badBody' : Body := [.attribute (.borrowed "b".toList) (.string (.borrowed "x".toList)),
  .attribute (.borrowed "b".toList) (.boolean true), .attribute (.borrowed "a".toList) (.number bigNumber)]

abbrev abcTy : Ty := .struct [("a".toList, .int ⟨true, 64⟩), ("b".toList, .string), ("c".toList, .bool)]

theorem abcTy_proper : ProperTy abcTy := by
  refine .struct _ (by decide) fun f hf => ?_
  simp only [List.mem_cons, List.not_mem_nil, or_false] at hf
  rcases hf with rfl | rfl | rfl <;> constructor

theorem big_fails (P : F64Parse) (I : F64OfInt) (ord : HashOrder) (t : Ty) (ht : ProperTy t) (hw : ¬ Wrapper t) :
    deserialize P I ord t (.expr (.number bigNumber)) = .error .parseInt :=
  (c88_expression P I ord t ht _ (.error .parseInt)).2 (.integer t _ hw rfl fun k h => by
    have : bigNumber.asInt ⟨true, 64⟩ = none := by decide
    rw [h.2] at this; cases this)

/-- the first problem is the number -/
example (P : F64Parse) (I : F64OfInt) (ord : HashOrder) :
    deserialize P I ord abcTy (.body badBody) = .error .parseInt := by
  refine c88_first_attribute P I ord abcTy (.int ⟨true, 64⟩) abcTy_proper badBody [(.borrowed "b".toList, .string (.borrowed "x".toList))]
    [(.borrowed "b".toList, .boolean true)] (.borrowed "a".toList) (.number bigNumber) rfl (by unfold Distinct; decide) ?_ rfl (.error .parseInt)
    (big_fails P I ord _ (.int _) (by simp [Wrapper]))
  intro p hp u hu
  simp only [List.mem_cons, List.not_mem_nil, or_false] at hp
  subst hp
  cases hu
  exact ⟨_, .string _⟩

/-- the first problem is the name -/
example (P : F64Parse) (I : F64OfInt) (ord : HashOrder) :
    deserialize P I ord abcTy (.body badBody') = .error (.bodyDuplicateKey "b".toList) := by
  refine c88_repeated_attribute P I ord abcTy abcTy_proper (.inl ⟨_, rfl⟩) badBody' [(.borrowed "b".toList, .string (.borrowed "x".toList))]
    [(.borrowed "a".toList, .number bigNumber)] (.borrowed "b".toList) (.boolean true) rfl (by unfold Distinct; decide) (by simp) ?_
  intro p hp u hu
  simp only [List.mem_cons, List.not_mem_nil, or_false] at hp
  subst hp
  cases hu
  exact ⟨_, .string _⟩

/-- the only problem is that `a` and `c` are missing -/
example (P : F64Parse) (I : F64OfInt) (ord : HashOrder) :
    deserialize P I ord abcTy (.body [.attribute (.borrowed "b".toList) (.string (.borrowed "x".toList))]) = .error .custom := by
  have he : ∀ k n, EntryOf [.attribute (.borrowed "b".toList) (.string (.borrowed "x".toList))] k n →
      k = "b".toList ∧ n = .expr (.string (.borrowed "x".toList)) := by
    rintro k n (⟨k', e, h, rfl, rfl⟩ | ⟨run, ⟨pre, post, h, hne, -⟩, -⟩)
    · simp only [attrs, List.filterMap_cons, List.filterMap_nil, List.mem_cons, List.not_mem_nil, or_false] at h
      cases h; exact ⟨rfl, rfl⟩
    · simp only [blocks, List.filterMap_cons, List.filterMap_nil] at h
      have := congrArg List.length h
      simp only [List.length_append, List.length_nil] at this
      exact absurd (List.length_eq_zero_iff.1 (by omega)) hne
  refine c88_missing_field P I ord _ abcTy_proper _ (by unfold Distinct; decide) (by rintro ⟨p, -, q, hq, -⟩; simp [blocks] at hq)
    (fun k n h => ?_) "c".toList .bool (by simp) (fun n h => ?_) (by simp)
  · obtain ⟨rfl, rfl⟩ := he k n h; exact ⟨_, .string _⟩
  · have := (he _ n h).1; revert this; decide

/-- with two types of blocks that fail, either failure is possible: an integer that is too large, or the panic of a label -/
abbrev twoBad : Body := [.block (.borrowed "c".toList) [] [.attribute (.borrowed "v".toList) (.number bigNumber)],
  .block (.borrowed "d".toList) [.stringLiteral "l".toList] []]

theorem c88_failure_depends_on_order (P : F64Parse) (I : F64OfInt) :
    deserialize P I ord0 (.map .ignored) (.body twoBad) = .error .parseInt ∧
    deserialize P I ord1 (.map .ignored) (.body twoBad) = .panic := by
  constructor
  · rw [deserialize, deN_fuel P I ord0 _ (.map .ignored) (.body twoBad) _ 100000 (Nat.lt_succ_self _) (Nat.lt_succ_self _)]
    · rfl
    · decide +kernel
  · rw [deserialize, deN_fuel P I ord1 _ (.map .ignored) (.body twoBad) _ 100000 (Nat.lt_succ_self _) (Nat.lt_succ_self _)]
    · rfl
    · decide +kernel

/-- both are failures of the rules -/
example (P : F64Parse) (I : F64OfInt) : Fails P I BlockEntries (.map .ignored) (.body twoBad) (.error .parseInt) ∧
    Fails P I BlockEntries (.map .ignored) (.body twoBad) .panic :=
  ⟨(c88_failures P I _ (.map _ .ignored) _ _).1 ⟨ord0, (c88_failure_depends_on_order P I).1⟩,
    (c88_failures P I _ (.map _ .ignored) _ _).1 ⟨ord1, (c88_failure_depends_on_order P I).2⟩⟩

end Verif.Props
