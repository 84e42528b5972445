import Verif.Proofs.Embed
import Verif.Props.OldLaid
/-! # C81 for the legacy parser -/
set_option autoImplicit false

namespace Verif

section
open Spec
variable {U : CharClass} {P : F64Parse}

theorem laidEntries_append {a b : List (Key × Value)} {s t : Str} (h : LaidEntries U P a s) (ht : LaidEntries U P b t) :
    LaidEntries U P (a ++ b) (s ++ t) := by
  refine LaidEntries.rec (motive_1 := fun _ _ _ _ => True) (motive_2 := fun _ _ _ => True) (motive_3 := fun _ _ _ => True)
    (motive_4 := fun a s _ => LaidEntries U P (a ++ b) (s ++ t)) (motive_5 := fun _ _ _ _ _ => True)
    ?_ ?_ ?_ ?_ ?_ ?_ ?_ ?_ ?_ ?_ ?_ ?_ ?_ ?_ ?_ ?_ ?_ h
  case refine_13 =>
    intro l hl
    cases ht with
    | done m hm => exact .done _ (hl.append hm)
    | entry m s' n' t' h' k' v' b' hm he' hn' hx' hb' =>
      have := LaidEntries.entry (l ++ m) s' n' t' h' k' v' b' (hl.append hm) he' hn' hx' hb'
      simpa using this
  case refine_14 =>
    intro l s n t' h k v a hl he hn hx _ _ ih
    have := LaidEntries.entry l s n (t' ++ t) h k v (a ++ b) hl he hn hx ih
    simpa using this
  all_goals intros; trivial

theorem laidOldDocument_line {es : List (Key × Value)} {s : Str} (h : LaidOldDocument U P es s) : LaidEntries U P es (s ++ ['\n']) := by
  cases h with
  | lines _ _ h =>
    have := laidEntries_append h (.done ['\n'] (.single (.space _ (by simp))))
    simpa using this
  | last es s k v t h he =>
    have := LaidEntries.entry [] t ['\n'] [] none k v [] .nil he (.newline _ lineEnds_lf) (.none _) (.done _ .nil)
    have := laidEntries_append h this
    simpa using this

theorem laidEntries_layout {es : List (Key × Value)} {l s : Str} (hl : AnyLayout l) (h : LaidEntries U P es s) : LaidEntries U P es (l ++ s) := by
  have := laidEntries_append (.done l hl) h
  simpa using this

end

namespace Props
open Spec

variable (U : CharClass) (P : F64Parse)

/-- C81: a document of the legacy parser may be followed by a line end. -/
theorem c81_legacy_line_end (s : Str) (es : List (Key × Value)) (h : fromStr U P s none = .ok (.unmerged es)) :
    fromStr U P (s ++ ['\n']) none = .ok (.unmerged es) := by
  rw [c71_every_layout_is_read] at *
  exact .lines _ _ (laidOldDocument_line h)

/-- C81: one document per line (or more lines): the entries follow each other. -/
theorem c81_legacy_lines (ds : List (Str × List (Key × Value))) (h : ∀ d ∈ ds, fromStr U P d.1 none = .ok (.unmerged d.2)) :
    fromStr U P (ds.flatMap fun d => d.1 ++ ['\n']) none = .ok (.unmerged (ds.flatMap fun d => d.2)) := by
  have : LaidEntries U P (ds.flatMap fun d => d.2) (ds.flatMap fun d => d.1 ++ ['\n']) := by
    induction ds with
    | nil => exact .done _ .nil
    | cons d ds ih =>
      simp only [List.flatMap_cons]
      exact laidEntries_append (laidOldDocument_line ((c71_every_layout_is_read U P _ _).1 (h d (by simp))))
        (ih fun d hd => h d (by simp [hd]))
  exact (c71_every_layout_is_read U P _ _).2 (.lines _ _ this)

/-- C81: a document put on lines of its own between the braces of a block with labels. -/
theorem c81_legacy_in_block (i ps l s : Str) (ls : List Str) (es : List (Key × Value)) (hi : IsIdent U i) (hp : LaidOldLabels ls ps)
    (h0 : ls ≠ []) (hl : AnyLayout l) (h : fromStr U P s none = .ok (.unmerged es)) :
    fromStr U P (i ++ ps ++ l ++ '{' :: '\n' :: s ++ ['\n', '}']) none =
      .ok (.unmerged [(.identifier (.borrowed i), .block (.unmerged [(ls, .unmerged es)]))]) := by
  rw [c71_every_layout_is_read] at *
  have h1 : LaidEntries U P es ('\n' :: (s ++ ['\n'])) :=
    laidEntries_layout (l := ['\n']) (.single (.space _ (by simp))) (laidOldDocument_line h)
  have := LaidOldDocument.last [] [] _ _ _ (.done _ .nil) (LaidEntry.block i ps l _ [] ls es hi hp h0 hl h1 .nil)
  simpa using this

/-- C81: or of a block without labels. -/
theorem c81_legacy_in_map (i l s : Str) (es : List (Key × Value)) (hi : IsIdent U i) (hl : AnyLayout l)
    (h : fromStr U P s none = .ok (.unmerged es)) :
    fromStr U P (i ++ l ++ '{' :: '\n' :: s ++ ['\n', '}']) none =
      .ok (.unmerged [(.identifier (.borrowed i), .object [.unmerged es])]) := by
  rw [c71_every_layout_is_read] at *
  have h1 : LaidEntries U P es ('\n' :: (s ++ ['\n'])) :=
    laidEntries_layout (l := ['\n']) (.single (.space _ (by simp))) (laidOldDocument_line h)
  have := LaidOldDocument.last [] [] _ _ _ (.done _ .nil) (LaidEntry.map i l _ [] es hi hl h1 .nil)
  simpa using this

/-- C81: or of an object behind `=`. -/
theorem c81_legacy_in_object (ks l m s : Str) (k : Key) (es : List (Key × Value)) (hk : LaidOldKey U k ks) (hl : AnyInline l)
    (hm : AnyInline m) (h : fromStr U P s none = .ok (.unmerged es)) :
    fromStr U P (ks ++ l ++ '=' :: m ++ '{' :: '\n' :: s ++ ['\n', '}']) none = .ok (.unmerged [(k, .object [.unmerged es])]) := by
  rw [c71_every_layout_is_read] at *
  have h1 : LaidEntries U P es ('\n' :: (s ++ ['\n'])) :=
    laidEntries_layout (l := ['\n']) (.single (.space _ (by simp))) (laidOldDocument_line h)
  have := LaidOldDocument.last [] [] _ _ _ (.done _ .nil) (LaidEntry.attribute ks l m _ [] none k _ hk hl hm (.map [] es _ .nil h1) .nil (fun h => absurd rfl h))
  simpa using this

/-- Non-vacuity of C81: a document with an entry that ends with the text, in a block, a block without labels and an object. -/
example : fromStr asciiClass zeroFloats "x = 1\ny = [2]".toList none =
      .ok (.unmerged [(.identifier (.borrowed ['x']), .integer 1), (.identifier (.borrowed ['y']), .list [.integer 2])]) ∧
    LaidOldLabels [['l']] " \"l\"".toList ∧
    fromStr asciiClass zeroFloats "a \"l\" {\nx = 1\ny = [2]\n}".toList none =
      .ok (.unmerged [(.identifier (.borrowed ['a']), .block (.unmerged [([['l']],
        .unmerged [(.identifier (.borrowed ['x']), .integer 1), (.identifier (.borrowed ['y']), .list [.integer 2])])]))]) ∧
    fromStr asciiClass zeroFloats "\"a\" = {\nx = 1\ny = [2]\n}".toList none =
      .ok (.unmerged [(.string (.ownedS ['a']), .object [
        .unmerged [(.identifier (.borrowed ['x']), .integer 1), (.identifier (.borrowed ['y']), .list [.integer 2])]])]) := by
  refine ⟨by decide +kernel, .cons [' '] ['l'] ['l'] [] [] (.single (.blank _ (by decide))) (.plain _ _ _ _ ?_ ?_) .nil, by decide +kernel, by decide +kernel⟩
  · simp [PlainLine]
  · exact .nil _

end Props
end Verif
