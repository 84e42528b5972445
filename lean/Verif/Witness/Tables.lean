import Verif.Witness.Base
import Verif.Props.Tables
/-! # Cases for C94 -/
set_option autoImplicit false

namespace Verif.Witness
open Verif Spec Verif.Props

theorem not_eAcute {c : Char} (h : c.toNat < 128) : (c == 'é') = false := by
  rw [beq_eq_false_iff_ne]; rintro rfl; exact absurd h (by decide)

/-- ASCII, and `é` wherever a letter may stand. -/
def latinClass : CharClass where
  idStart := fun c => c.isAlpha || c == 'é'
  idContinue := fun c => (c.isAlphanum || c == '_') || c == 'é'
  alnum := fun c => c.isAlphanum || c == 'é'
  idStart_ascii := fun c h => by rw [not_eAcute h, Bool.or_false]
  idContinue_ascii := fun c h => by rw [not_eAcute h, Bool.or_false]
  alnum_ascii := fun c h => by rw [not_eAcute h, Bool.or_false]
  idStart_idContinue := by
    intro c h
    simp only [Bool.or_eq_true] at h
    rcases h with h | h
    · simp [Char.isAlphanum, h]
    · simp [h]

theorem latin_extends : Extends asciiClass latinClass :=
  ⟨fun c h => by simp only [asciiClass] at h; simp [latinClass, h], fun c h => by simp only [asciiClass] at h; simp only [latinClass, h]; rfl,
    fun c h => by simp only [asciiClass] at h; simp only [latinClass, h]; rfl⟩

/-- `a = "é"` and a heredoc: no `é` in a name. -/
def tbText : Str := "a = \"é\"\nb \"é\" {\n c = <<EOF\né\nEOF\n}\n".toList

def tbBody : Body := [.attribute (.borrowed ['a']) (.string (.ownedS ['é'])),
  .block (.borrowed ['b']) [.stringLiteral ['é']] [.attribute (.borrowed ['c']) (.string (.borrowed ['é']))]]

theorem tb_read : parseStr asciiClass tbText = .ok tbBody := by decide +kernel

example : parseStr latinClass tbText = .ok tbBody := c94_later_parse_str _ _ latin_extends _ _ tb_read
/-- The tables do not agree on this text, so the result does not follow from the first part. -/
example : ¬ SameOn asciiClass latinClass tbText := fun h => absurd (h 'é' (by decide)).1 (by decide)

/-- A name that only the later table allows: here the versions differ, but never in the tree. -/
def tbName : Body := [.attribute (.borrowed ['é']) .null]
example : parseStr asciiClass "é = null\n".toList = .error .parse := by decide +kernel
example : parseStr latinClass "é = null\n".toList = .ok tbName := by decide +kernel
example : Extends latinClass asciiClass → False := fun h => absurd (h.alnum 'é' (by decide)) (by decide)

/-- Tables that differ, but not on the characters of the text. -/
def tbGreek : Str := "a = λ\n".toList
theorem tb_same : SameOn asciiClass latinClass tbGreek := by intro c hc; simp [tbGreek] at hc; rcases hc with rfl | rfl | rfl | rfl | rfl | rfl <;> decide
example := c94_parse_str_local _ _ _ tb_same
example := c94_expression_local _ _ _ tb_same
example := c94_from_str_local _ _ (fun _ => none) _ none tb_same
example := c94_slice_local asciiClass latinClass (fun _ => none) (utf8 tbGreek) fun s h => by
  rw [← fromUtf8_iff, fromUtf8_utf8] at h; injection h with h; subst h; exact tb_same
example := c94_reader_local asciiClass latinClass (fun _ => none) [.data (utf8 tbGreek), .data []] fun s h => by
  have e : readToEnd [.data (utf8 tbGreek), .data []] = some (utf8 tbGreek) := by decide
  rw [delivers_iff, e] at h; injection h with h
  rw [← fromUtf8_iff, fromUtf8_utf8] at h; injection h with h; subst h; exact tb_same
example (I : F64OfInt) (ord : HashOrder) (t : Ty) := c94_deserialize_local _ _ (fun _ => none) I ord t _ tb_same
example := c94_ascii asciiClass latinClass (fun _ => none) "a = [1, {}]\n".toList (by intro c hc; simp at hc; rcases hc with rfl | rfl | rfl | rfl | rfl | rfl | rfl | rfl | rfl | rfl | rfl | rfl <;> decide)
example : Expr.parse latinClass "[\"é\"]".toList = .ok (.tuple [.string (.ownedS ['é'])]) :=
  c94_later_expression asciiClass latinClass latin_extends _ _ (by decide +kernel)
example (merge : Option MergeBehaviour) := c94_later_from_str asciiClass latinClass (fun _ => none) latin_extends "a \"é\" {}".toList (.unmerged [(.identifier (.borrowed ['a']), .block (.unmerged [([['é']], .unmerged [])]))]) (by decide +kernel) merge
example (I : F64OfInt) (ord : HashOrder) (t : Ty) := c94_later_deserialize asciiClass latinClass (fun _ => none) latin_extends I ord t _ _ tb_read
example := c94_versions_never_disagree asciiClass latinClass tbText _ _ tb_read (c94_later_parse_str _ _ latin_extends _ _ tb_read)
example := c94_versions_never_disagree_expression asciiClass latinClass "null".toList .null .null (by decide +kernel) (by decide +kernel)
example := c94_versions_never_disagree_from_str asciiClass latinClass (fun _ => none) "a=null".toList (.unmerged [(.identifier (.borrowed ['a']), .null)]) (.unmerged [(.identifier (.borrowed ['a']), .null)]) (by decide +kernel) (by decide +kernel)

end Verif.Witness
