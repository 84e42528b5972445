import Verif.Proofs.AlikePlace
import Verif.Props.Alike
import Verif.Props.Edit
import Verif.Props.Literals
/-!
# C69: how a value is spelled does not matter

Number literals with the same value, and strings with the same contents, can replace each other anywhere in a document.
-/
set_option autoImplicit false

namespace Verif.Props
open Verif Spec

section
variable (P : F64Parse) (I : F64OfInt) (ord ord' : HashOrder)

/-- C69: literals of the same integer are the same number, whatever their sign and leading zeros. -/
theorem c69_same_integer (t t' : Str) (n n' : Number) (h : IsNumber t n) (h' : IsNumber t' n') (k : Int) (hk : IntLit t k)
    (hk' : IntLit t' k) : SameNumber P n n' := by
  have hf : ∀ {t : Str} {n : Number}, IsNumber t n → IntLit t k → n.isFloat = false := by
    intro t n h hk
    cases hb : n.isFloat with
    | false => rfl
    | true => exact absurd hk (float_not_intLit h hb)
  have key : ∀ {t t' : Str} {n n' : Number}, IsNumber t n → IsNumber t' n' → IntLit t k → IntLit t' k → ∀ j, IsInteger n j → IsInteger n' j := by
    intro t t' n n' h h' hk hk' j hj
    obtain ⟨h1, h2, -⟩ := (c11_conversion_exact ⟨true, 64⟩ t n h j).1 hj.2
    obtain rfl := intLit_functional h1 hk
    exact ⟨hf h' hk', (c11_conversion_exact ⟨true, 64⟩ t' n' h' j).2 ⟨hk', h2, .inl rfl⟩⟩
  refine ⟨fun j => ⟨key h h' hk hk' j, key h' h hk' hk j⟩, fun x => ⟨fun hx => ?_, fun hx => ?_⟩⟩
  · rw [IsFloat, hf h hk] at hx; cases hx.1
  · rw [IsFloat, hf h' hk'] at hx; cases hx.1

/-- C69: float literals that the standard library reads as the same float are the same number. -/
theorem c69_same_float (n n' : Number) (h : n.isFloat = true) (h' : n'.isFloat = true) (hp : P n.input.str = P n'.input.str) :
    SameNumber P n n' := by
  refine ⟨fun k => ⟨fun hk => ?_, fun hk => ?_⟩, fun x => ?_⟩
  · have := hk.1; rw [h] at this; cases this
  · have := hk.1; rw [h'] at this; cases this
  · simp [IsFloat, h, h', hp]

/-- C69: a value can be replaced by an alike one anywhere in a document: every type reads the same value, or none from both. -/
theorem c69_replace (keep : Bool) (t : Ty) (ht : ProperTy t) (hs : keep = true ∨ StrFree t) (p : ValuePlace) (e e' : Expr)
    (ha : Alike P keep (.expr e) (.expr e')) (v : DVal) (h : deserialize P I ord t (.body (p.fill e)) = .ok v) :
    ∃ v', deserialize P I ord' t (.body (p.fill e')) = .ok v' ∧ SameVal v v' :=
  c69_alike P I ord ord' keep t ht hs _ _ (alike_fill ha p) v h

/-- C69: a number can be spelled differently anywhere in a document, for every type, even with `&str`. -/
theorem c69_number_spelling (t : Ty) (ht : ProperTy t) (p : ValuePlace) (n n' : Number) (hn : SameNumber P n n') (v : DVal)
    (h : deserialize P I ord t (.body (p.fill (.number n))) = .ok v) :
    ∃ v', deserialize P I ord' t (.body (p.fill (.number n'))) = .ok v' ∧ SameVal v v' :=
  c69_replace P I ord ord' true t ht (.inl rfl) p _ _ (.number n n' hn) v h

/-- C69: a string can be written in any way (quoted with any escapes, heredoc) anywhere in a document, for every type without `&str`. -/
theorem c69_string_spelling (t : Ty) (ht : ProperTy t) (hs : StrFree t) (p : ValuePlace) (s s' : CowStr) (he : s.str = s'.str)
    (v : DVal) (h : deserialize P I ord t (.body (p.fill (.string s))) = .ok v) :
    ∃ v', deserialize P I ord' t (.body (p.fill (.string s'))) = .ok v' ∧ SameVal v v' :=
  c69_replace P I ord ord' false t ht (.inr hs) p _ _ (.string s s' he (by simp)) v h

/-- C69: the same for the text of a document: the text of the value at a place can be replaced by any text of an alike value, and
`from_str` gives the same. -/
theorem c69_replace_text (U : CharClass) (keep : Bool) (t : Ty) (ht : ProperTy t) (hs : keep = true ∨ StrFree t) (p : ValuePlace)
    (e : Expr) (s : Str) (h : parseStr U s = .ok (p.fill e)) :
    ∃ pre x post, s = pre ++ x ++ post ∧ WrittenBefore U x e post ∧
      ∀ x' e', WrittenBefore U x' e' post → Alike P keep (.expr e) (.expr e') → ∀ v, deFromStr U P I ord t s = .ok v →
        ∃ v', deFromStr U P I ord' t (pre ++ x' ++ post) = .ok v' ∧ SameVal v v' := by
  obtain ⟨pre, x, post, h1, h2, h3⟩ := c89_value_in_place U p e s h
  refine ⟨pre, x, post, h1, h2, fun x' e' hx ha v hv => ?_⟩
  exact c69_from_str P I ord ord' U keep t ht hs _ _ _ _ h (h3 x' e' hx) (alike_fill ha p) v hv

end

/-! ## samples -/

/-- the literals `1` and `+01` -/
example (P : F64Parse) : ∃ n n', number ['1'] = .ok [] n ∧ number ['+', '0', '1'] = .ok [] n' ∧ SameNumber P n n' := by
  have h1 : number ['1'] = .ok [] ⟨.borrowed ['1'], true, some (.borrowed ['1']), none, none⟩ := by decide +kernel
  have h2 : number ['+', '0', '1'] = .ok [] ⟨.borrowed ['+', '0', '1'], true, some (.borrowed ['0', '1']), none, none⟩ := by
    decide +kernel
  refine ⟨_, _, h1, h2, ?_⟩
  obtain ⟨t, e, g1⟩ := number_sound h1
  obtain ⟨t', e', g2⟩ := number_sound h2
  rw [List.append_nil] at e e'
  subst e e'
  have k1 := ((c11_conversion_exact ⟨true, 64⟩ _ _ g1 1).1 (by decide +kernel)).1
  have k2 := ((c11_conversion_exact ⟨true, 64⟩ _ _ g2 1).1 (by decide +kernel)).1
  exact c69_same_integer P _ _ _ _ g1 g2 1 k1 k2

/-- an integer and a float literal are different numbers, even of the same value: `1` can be read as `u8`, `1.0` cannot -/
example (P : F64Parse) (n n' : Number) (k : Int) (h : IsInteger n k) (h' : n'.isFloat = true) : ¬ SameNumber P n n' := by
  intro hs
  have := ((hs.1 k).1 h).1
  rw [h'] at this; cases this

end Verif.Props
