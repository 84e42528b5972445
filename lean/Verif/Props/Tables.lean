import Verif.Proofs.TablesMono
import Verif.Props.Laid
import Verif.Props.OldLaid
import Verif.Props.DeTypes
/-! # C94: what depends on the version of Unicode -/
set_option autoImplicit false

namespace Verif.Props
open Verif Spec PRes

variable (U U' : CharClass) (P : F64Parse)

/-- C94: `parse_str` looks up only characters of the text: tables that say the same of those give the same outcome, tree, error or panic. -/
theorem c94_parse_str_local (s : Str) (h : SameOn U U' s) : parseStr U s = parseStr U' s := parseStr_tables h

/-- C94: the same for expressions on their own. -/
theorem c94_expression_local (s : Str) (h : SameOn U U' s) : Expr.parse U s = Expr.parse U' s := exprParse_tables h

/-- C94: the same for the legacy `from_str`, merging or not. -/
theorem c94_from_str_local (s : Str) (merge : Option MergeBehaviour) (h : SameOn U U' s) :
    fromStr U P s merge = fromStr U' P s merge := fromStr_tables h merge

/-- C94: the same for bytes, of the text they encode, if they encode one. -/
theorem c94_slice_local (bytes : List Nat) (h : ∀ s, bytes = utf8 s → SameOn U U' s) :
    parseSlice U bytes = parseSlice U' bytes ∧ ∀ merge, fromSlice U P bytes merge = fromSlice U' P bytes merge := by
  unfold parseSlice fromSlice
  cases hf : fromUtf8 bytes with
  | none => exact ⟨rfl, fun _ => rfl⟩
  | some s => exact ⟨parseStr_tables (h s (fromUtf8_iff.1 hf)), fun merge => fromStr_tables (h s (fromUtf8_iff.1 hf)) merge⟩

/-- C94: the same for readers. -/
theorem c94_reader_local (es : List ReadEvent) (h : ∀ s, Delivers es (some (utf8 s)) → SameOn U U' s) :
    parseReader U es = parseReader U' es ∧ ∀ merge, fromReader U P es merge = fromReader U' P es merge := by
  simp only [delivers_iff] at h
  unfold parseReader fromReader
  cases hr : readToEnd es with
  | none => exact ⟨rfl, fun _ => rfl⟩
  | some bytes =>
    simp only
    cases hf : fromUtf8 bytes with
    | none => exact ⟨rfl, fun _ => rfl⟩
    | some s =>
      have hs := h s (by rw [hr, fromUtf8_iff.1 hf])
      simp only
      rw [parseStr_tables hs]
      exact ⟨rfl, fun merge => by rw [fromStr_tables hs]⟩

/-- C94: the same for deserialization from text. -/
theorem c94_deserialize_local (I : F64OfInt) (ord : HashOrder) (t : Ty) (s : Str) (h : SameOn U U' s) :
    deFromStr U P I ord t s = deFromStr U' P I ord t s := by
  unfold deFromStr; rw [parseStr_tables h]

/-- C94: a text of ASCII characters is read in the same way with every version of Unicode. -/
theorem c94_ascii (s : Str) (h : Ascii s) :
    parseStr U s = parseStr U' s ∧ Expr.parse U s = Expr.parse U' s ∧ ∀ merge, fromStr U P s merge = fromStr U' P s merge :=
  ⟨parseStr_tables (sameOn_ascii h), exprParse_tables (sameOn_ascii h), fromStr_tables (sameOn_ascii h)⟩

/-- C94: a document that is read with one version of Unicode is read to the same tree with every later version. -/
theorem c94_later_parse_str (hu : Extends U U') (s : Str) (b : Body) (h : parseStr U s = .ok b) : parseStr U' s = .ok b :=
  (c15_every_layout_is_read U' s b).2 (laidDocument_extends hu ((c15_every_layout_is_read U s b).1 h))

/-- C94: the same for expressions. -/
theorem c94_later_expression (hu : Extends U U') (s : Str) (e : Expr) (h : Expr.parse U s = .ok e) : Expr.parse U' s = .ok e :=
  (c15_every_expression_layout_is_read U' s e).2 (laidExpr_extends hu ((c15_every_expression_layout_is_read U s e).1 h))

theorem later_entries (hu : Extends U U') (s : Str) (m : MapValues) (h : fromStr U P s none = .ok m) (merge : Option MergeBehaviour) :
    fromStr U' P s merge = fromStr U P s merge := by
  obtain ⟨es, rfl, hd⟩ := (c21_from_str_accepts_exactly_the_grammar U P s m).1 h
  have h1 := (c71_every_layout_is_read U P s es).1 h
  have key : ∀ V, LaidOldDocument V P es s → fromStr V P s merge = finishFromStr merge [] (.unmerged es) := by
    intro V h
    have hb : oldBody V P s = .ok [] (.unmerged es) := (oldBody_iff (U := V) (P := P)).2 ⟨rfl, es, rfl, laidOldDocument_document h⟩
    unfold fromStr
    rw [hb]
  rw [key U h1, key U' (laidOldDocument_extends hu h1)]

/-- C94: the same for the legacy `from_str`, merging or not: the map, or the error of merging, stays the same. -/
theorem c94_later_from_str (hu : Extends U U') (s : Str) (m : MapValues) (h : fromStr U P s none = .ok m) (merge : Option MergeBehaviour) :
    fromStr U' P s merge = fromStr U P s merge := later_entries U U' P hu s m h merge

/-- C94: the same for deserialization: a text that can be read at all gives the same value, or the same error. -/
theorem c94_later_deserialize (hu : Extends U U') (I : F64OfInt) (ord : HashOrder) (t : Ty) (s : Str) (b : Body)
    (h : parseStr U s = .ok b) : deFromStr U' P I ord t s = deFromStr U P I ord t s := by
  unfold deFromStr; rw [h, c94_later_parse_str U U' hu s b h]

/-- The tables with the characters of both. -/
def unionClass : CharClass where
  idStart := fun c => U.idStart c || U'.idStart c
  idContinue := fun c => U.idContinue c || U'.idContinue c
  alnum := fun c => U.alnum c || U'.alnum c
  idStart_ascii := fun c h => by rw [U.idStart_ascii c h, U'.idStart_ascii c h, Bool.or_self]
  idContinue_ascii := fun c h => by rw [U.idContinue_ascii c h, U'.idContinue_ascii c h, Bool.or_self]
  alnum_ascii := fun c h => by rw [U.alnum_ascii c h, U'.alnum_ascii c h, Bool.or_self]
  idStart_idContinue := fun c h => by
    rcases (Bool.or_eq_true _ _).mp h with h | h
    · rw [U.idStart_idContinue c h]; rfl
    · rw [U'.idStart_idContinue c h, Bool.or_true]

theorem union_left : Extends U (unionClass U U') :=
  ⟨fun c h => by simp [unionClass, h], fun c h => by simp [unionClass, h], fun c h => by simp [unionClass, h]⟩

theorem union_right : Extends U' (unionClass U U') :=
  ⟨fun c h => by simp [unionClass, h], fun c h => by simp [unionClass, h], fun c h => by simp [unionClass, h]⟩

/-- C94: whatever two versions of Unicode are used, a text that both can read has the same tree. -/
theorem c94_versions_never_disagree (s : Str) (b b' : Body) (h : parseStr U s = .ok b) (h' : parseStr U' s = .ok b') : b = b' := by
  have h1 := c94_later_parse_str U _ (union_left U U') s b h
  rw [c94_later_parse_str U' _ (union_right U U') s b' h'] at h1
  injection h1 with h1
  exact h1.symm

/-- C94: nor do they disagree on an expression. -/
theorem c94_versions_never_disagree_expression (s : Str) (e e' : Expr) (h : Expr.parse U s = .ok e) (h' : Expr.parse U' s = .ok e') :
    e = e' := by
  have h1 := c94_later_expression U _ (union_left U U') s e h
  rw [c94_later_expression U' _ (union_right U U') s e' h'] at h1
  injection h1 with h1
  exact h1.symm

/-- C94: nor on the entries of a legacy document. -/
theorem c94_versions_never_disagree_from_str (s : Str) (m m' : MapValues) (h : fromStr U P s none = .ok m)
    (h' : fromStr U' P s none = .ok m') : m = m' := by
  have h1 := c94_later_from_str U _ P (union_left U U') s m h none
  rw [c94_later_from_str U' _ P (union_right U U') s m' h' none, h, h'] at h1
  injection h1 with h1
  exact h1.symm

end Verif.Props
