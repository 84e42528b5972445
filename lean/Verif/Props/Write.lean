import Verif.Proofs.Write
import Verif.Model.Display
/-! # C78: which values a document can give, and saving a value that was loaded -/
set_option autoImplicit false

namespace Verif.Props
open Verif.Spec

section
variable (U : CharClass) (P : F64Parse) (I : F64OfInt) (ord ord' : HashOrder)

/-- C78: every value that the rules call expressible, written as a document in the obvious way, is read back by `from_str`,
up to the order of map entries. -/
theorem c78_written_is_read (F : FloatWriter) (hF : WritesFloats P I F) (t : Ty) (hp : ProperTy t) (hs : StrFree t)
    (v : DVal) (hd : IsDocument t v) (h : Expressible U P I t v) :
    ∃ v', deFromStr U P I ord t (printBody (toBody F v)) = .ok v' ∧ SameVal v v' := by
  obtain ⟨w, h1, h2⟩ := c68_read_is_deserialized P I ord t hp _ v (toBody_reads hF hd h hp)
  obtain ⟨b, h3, h4⟩ := c17_print_then_parse U _ (toBody_printable hF hd h)
  obtain ⟨v', h5, h6⟩ := c69_ownership P I ord ord t hp hs _ b h4.symm w h1
  refine ⟨v', ?_, sameVal_trans h2 h6⟩
  unfold deFromStr
  rw [h3]; exact h5

/-- C78: floats can be written: some choice of literals gives every float that any literal gives. -/
theorem c78_writer_exists : ∃ F : FloatWriter, WritesFloats P I F := by
  classical
  refine ⟨⟨fun x => if h : FloatLit P x then h.choose else if h : FloatText P I x then h.choose else intNumber 0,
    fun x => if h : Float32Text P I x then h.choose else intNumber 0⟩, fun x hx => ?_, fun x hx => ?_, fun x hx => ?_⟩
  · by_cases hl : FloatLit P x
    · simp only [dif_pos hl]
      exact ⟨hl.choose_spec.1, .inl hl.choose_spec.2⟩
    · simp only [dif_neg hl, dif_pos hx]
      exact hx.choose_spec
  · simp only [dif_pos hx]
    exact hx.choose_spec.2
  · have : (if h : Float32Text P I x then h.choose else intNumber 0) = hx.choose := dif_pos hx
    have hs := hx.choose_spec
    rw [← this] at hs
    exact hs

/-- C78: whatever `from_str` gives is expressible. -/
theorem c78_read_is_expressible (t : Ty) (hp : ProperTy t) (hs : StrFree t) (hn : NamedTy U t) (s : Str) (v : DVal)
    (h : deFromStr U P I ord t s = .ok v) : Expressible U P I t v := by
  obtain ⟨b, hb, hr⟩ := c68_from_str_value P I ord U t hp s v h
  exact reads_expressible hr (c17_parsed_is_printable U s b hb) ⟨hn, hs⟩

/-- C78: a value that `from_str` gives is one that a whole document can have. -/
theorem c78_read_is_document (t : Ty) (hp : ProperTy t) (s : Str) (v : DVal) (h : deFromStr U P I ord t s = .ok v) :
    IsDocument t v := by
  obtain ⟨b, -, hr⟩ := c68_from_str_value P I ord U t hp s v h
  cases hr with
  | body =>
    rename_i hm
    cases hm with
    | map => exact .inr (.inl ⟨_, rfl⟩)
    | struct => exact .inl ⟨_, rfl⟩
    | ignored => exact .inr (.inr (.inl rfl))
    | any => exact .inr (.inr (.inr ⟨rfl, _, rfl⟩))

/-- C78: the values of a type that documents give, up to the order of map entries, are exactly the expressible ones. -/
theorem c78_values (t : Ty) (hp : ProperTy t) (hs : StrFree t) (hn : NamedTy U t) :
    (∀ v, IsDocument t v → Expressible U P I t v → ∃ s v', deFromStr U P I ord t s = .ok v' ∧ SameVal v v') ∧
    (∀ s v, deFromStr U P I ord t s = .ok v → IsDocument t v ∧ Expressible U P I t v) := by
  obtain ⟨F, hF⟩ := c78_writer_exists P I
  exact ⟨fun v hd h => ⟨_, c78_written_is_read U P I ord F hF t hp hs v hd h⟩,
    fun s v h => ⟨c78_read_is_document U P I ord t hp s v h, c78_read_is_expressible U P I ord t hp hs hn s v h⟩⟩

/-- C78: load, save, load again: a value that was read from any document, with any layout, blocks and order, can be saved in the
obvious way, and loading that gives the same value. -/
theorem c78_load_save_load (F : FloatWriter) (hF : WritesFloats P I F) (t : Ty) (hp : ProperTy t) (hs : StrFree t)
    (hn : NamedTy U t) (s : Str) (v : DVal) (h : deFromStr U P I ord t s = .ok v) :
    ∃ v', deFromStr U P I ord' t (printBody (toBody F v)) = .ok v' ∧ SameVal v v' :=
  c78_written_is_read U P I ord' F hF t hp hs v (c78_read_is_document U P I ord t hp s v h)
    (c78_read_is_expressible U P I ord t hp hs hn s v h)

/-- C78: an integer field outside the range of `i64` cannot be read from any document, even if its type has room for it. -/
theorem c78_no_large_integer (T : IntTy) (f : Str) (hf : IsIdent U f) (k : Int) (hk : k < -2 ^ 63 ∨ 2 ^ 63 ≤ k) (s : Str) :
    deFromStr U P I ord (.struct [(f, .int T)]) s ≠ .ok (.entries [(f, .int k)]) := by
  intro h
  have he := c78_read_is_expressible U P I ord _ (.struct _ (by simp) (by simp; exact .int T)) (.struct _ (by simp; exact .int T))
    (.struct _ (by simpa using hf) (by simp; exact .leaf _ trivial)) s _ h
  generalize hz : DVal.entries [(f, .int k)] = z at he
  cases he with
  | struct _ vs _ hl hv =>
    obtain ⟨v, rfl⟩ := List.length_eq_one_iff.1 hl
    cases hz
    have := hv ((f, .int T), .int k) (by simp)
    cases this
    omega

/-- C78: `Some(())` and `Some(None)` cannot be read: they become `None`. -/
theorem c78_no_some_none (t : Ty) (f : Str) (hf : IsIdent U f) (hp : ProperTy t) (hs : StrFree t) (hn : NamedTy U t)
    (s : Str) (v : DVal) (hv : v = .unit ∨ v = .none) :
    deFromStr U P I ord (.struct [(f, .option t)]) s ≠ .ok (.entries [(f, .some v)]) := by
  intro h
  have he := c78_read_is_expressible U P I ord _ (.struct _ (by simp) (by simp; exact .option _ hp))
    (.struct _ (by simp; exact .option _ hs))
    (.struct _ (by simpa using hf) (by simp; exact .option _ hn)) s _ h
  generalize hz : DVal.entries [(f, .some v)] = z at he
  cases he with
  | struct _ vs _ hl hv' =>
    obtain ⟨w, rfl⟩ := List.length_eq_one_iff.1 hl
    cases hz
    have := hv' ((f, .option t), .some v) (by simp)
    cases this with
    | some _ _ h1 h2 => rcases hv with rfl | rfl <;> contradiction

end

/-- Non-vacuity: `struct { a: u16, b: Vec<Option<bool>>, c: HashMap<String, String> }` with a value, and its document. -/
def writeTy : Ty :=
  .struct [(['a'], .int ⟨false, 16⟩), (['b'], .seq (.option .bool)), (['c'], .map .string)]
/-- the value -/
def writeVal : DVal :=
  .entries [(['a'], .int 80), (['b'], .seq [.some (.bool true), .none]), (['c'], .entries [(['k'], .string ['x'])])]

theorem writeVal_expressible (P : F64Parse) (I : F64OfInt) : Expressible asciiClass P I writeTy writeVal := by
  have hid : ∀ c ∈ ['a', 'b', 'c', 'k'], IsIdent asciiClass [c] := by
    intro c hc
    refine .mk c [] (.inl ?_) (by simp)
    simp at hc
    rcases hc with rfl | rfl | rfl | rfl <;> decide
  refine .struct [(['a'], .int ⟨false, 16⟩), (['b'], .seq (.option .bool)), (['c'], .map .string)]
    [.int 80, .seq [.some (.bool true), .none], .entries [(['k'], .string ['x'])]] ?_ rfl ?_
  · simp; exact ⟨hid _ (by simp), hid _ (by simp), hid _ (by simp)⟩
  · simp
    refine ⟨.int _ _ (by decide) (by decide) (by decide) (by decide), .seq _ _ ?_, .map _ _ (by simp) ?_ ?_⟩
    · simp; exact ⟨.some _ _ (by simp) (by simp) (.bool _), .none _⟩
    · simp; exact hid _ (by simp)
    · simp; exact .string _

example : printBody (toBody ⟨fun _ => intNumber 0, fun _ => intNumber 0⟩ writeVal) = lit "a = 80\nb = [true, null]\nc = {k = \"x\"}\n" := by decide +kernel

example (P : F64Parse) (I : F64OfInt) (ord : HashOrder) (F : FloatWriter) (hF : WritesFloats P I F) :
    ∃ v', deFromStr asciiClass P I ord writeTy (printBody (toBody F writeVal)) = .ok v' ∧ SameVal writeVal v' :=
  c78_written_is_read asciiClass P I ord F hF writeTy
    (.struct _ (by decide) (by simp; exact ⟨.int _, .seq _ (.option _ .bool), .map _ .string⟩))
    (.struct _ (by simp; exact ⟨.int _, .seq _ (.option _ .bool), .map _ .string⟩)) _ (.inl ⟨_, rfl⟩)
    (writeVal_expressible P I)

end Verif.Props
