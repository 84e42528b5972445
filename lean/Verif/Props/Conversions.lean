import Verif.Props.Construct
import Verif.Props.Merge
import Verif.Props.Containers
import Verif.Proofs.Bytes
/-! # Conversions into values, legacy keys as deserializers (C27, C51, C65) -/
set_option autoImplicit false

namespace Verif.Props
open Verif Spec

/-- C65: a value made with `Value::from` gives back what it was made from under the accessor of its kind. (Every other accessor
fails: C36.) -/
theorem c65_value_conversions (i : Int) (f : F64) (b : Bool) (s : Str) (ms : List MapValues) (m : MapValues) (bl : VBlock)
    (vs : List Value) :
    (Value.ofInteger i).getInteger = .ok i ∧ (Value.ofFloat f).getFloat = .ok f ∧ (Value.ofBool b).getBoolean = .ok b ∧
      (Value.ofStr s).getString = .ok s ∧ (Value.ofMaps ms).getMap = .ok ms ∧ (Value.ofMap m).getMap = .ok [m] ∧
      (Value.ofBlock bl).getBlock = .ok bl ∧ (Value.ofOptionList (some vs)).getList = .ok vs ∧
      (Value.ofOptionList none).getList = .ok [] :=
  ⟨rfl, rfl, rfl, rfl, rfl, rfl, rfl, rfl, rfl⟩

/-- C65: values made from different kinds of things, or from different things of one kind, are different. -/
theorem c65_value_conversions_injective (i j : Int) (f g : F64) (b c : Bool) (s t : Str) :
    (Value.ofInteger i = .ofInteger j → i = j) ∧ (Value.ofFloat f = .ofFloat g → f = g) ∧ (Value.ofBool b = .ofBool c → b = c) ∧
      (Value.ofStr s = .ofStr t → s = t) ∧ Value.ofInteger i ≠ .ofFloat f ∧ Value.ofInteger i ≠ .ofBool b ∧
      Value.ofInteger i ≠ .ofStr s ∧ Value.ofFloat f ≠ .ofBool b ∧ Value.ofFloat f ≠ .ofStr s ∧ Value.ofBool b ≠ .ofStr s := by
  refine ⟨?_, ?_, ?_, ?_, ?_, ?_, ?_, ?_, ?_, ?_⟩ <;> intro h <;> cases h <;> rfl

/-- C27: `is_empty_scalar` is true exactly of values without leaves, and panics exactly where `len_scalar` does. -/
theorem c27_is_empty_scalar (v : Value) :
    (HasNull (.val v) → v.isEmptyScalar = none) ∧ (¬ HasNull (.val v) → v.isEmptyScalar = some ((leaves v).isEmpty)) := by
  refine ⟨fun h => ?_, fun h => ?_⟩
  · unfold Value.isEmptyScalar; rw [(c27_len_scalar v).1 h]; rfl
  · unfold Value.isEmptyScalar; rw [(c27_len_scalar v).2 h]
    cases leaves v <;> rfl

/-- What a text alone can be read as: a string (also as a self-describing value), its bytes, a character if it is just one, or anything that is thrown away. -/
inductive TextReads (s : Str) : Ty → DVal → Prop
  | string : TextReads s .string (.string s)
  | char (c : Char) : s = [c] → TextReads s .char (.char c)
  | ignored : TextReads s .ignored .ignored
  | any : TextReads s .any (.string s)
  | bytes (u : U8) : TextReads s (.bytes u) (.seq ((utf8 s).map fun b : Nat => .int b))

/-- C51: a legacy key, quoted or not, deserializes as its text: into an owned string (or a self-describing value that is one), a byte buffer, or a `char` if it is one character; into
nothing else (not a `&str`, number, enum, option or newtype), and it never panics. -/
theorem c51_legacy_key (I : F64OfInt) (t : Ty) (k : Key) (v : DVal) :
    (deserializeKey I t k = .ok v ↔ TextReads k.text t v) ∧
      ((¬ ∃ v, TextReads k.text t v) → deserializeKey I t k = .error .custom) := by
  unfold deserializeKey Key.deserialize Res.bind
  dsimp only
  generalize k.text = s
  cases t <;> simp only [visit]
  case string =>
    refine ⟨⟨fun h => by cases h; exact .string, fun h => by cases h; rfl⟩, fun h => absurd ⟨_, .string⟩ h⟩
  case ignored =>
    refine ⟨⟨fun h => by cases h; exact .ignored, fun h => by cases h; rfl⟩, fun h => absurd ⟨_, .ignored⟩ h⟩
  case any =>
    refine ⟨⟨fun h => by cases h; exact .any, fun h => by cases h; rfl⟩, fun h => absurd ⟨_, .any⟩ h⟩
  case bytes u =>
    rw [strBytes_eq]
    refine ⟨⟨fun h => by cases h; exact .bytes u, fun h => by cases h; rfl⟩, fun h => absurd ⟨_, .bytes u⟩ h⟩
  case char =>
    rcases s with _ | ⟨c, _ | ⟨d, s⟩⟩
    · refine ⟨⟨fun h => (by cases h), fun h => ?_⟩, fun _ => rfl⟩
      cases h with | char c h => cases h
    · refine ⟨⟨fun h => by cases h; exact .char c rfl, fun h => ?_⟩, fun h => absurd ⟨_, .char c rfl⟩ h⟩
      cases h with | char c h => cases h; rfl
    · refine ⟨⟨fun h => (by cases h), fun h => ?_⟩, fun _ => rfl⟩
      cases h with | char c h => cases h
  all_goals exact ⟨⟨fun h => (by cases h), fun h => (by cases h)⟩, fun _ => trivial⟩

example (I : F64OfInt) : deserializeKey I .string (.string (.ownedS ['a', 'b'])) = .ok (.string ['a', 'b']) :=
  ((c51_legacy_key I _ _ _).1).2 .string

end Verif.Props
