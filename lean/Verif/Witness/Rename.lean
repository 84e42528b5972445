import Verif.Witness.Base
import Verif.Props.Rename
/-! # Cases for C93 -/
set_option autoImplicit false

namespace Verif.Witness
open Verif Spec Verif.Props

theorem ident_of {c : Char} {cs : Str} (h : IdentStart asciiClass c) (hs : ∀ d ∈ cs, IdentChar asciiClass d) : IsIdent asciiClass (c :: cs) :=
  .mk c cs h hs

def rnNum (s : Str) : Expr := .number ⟨.borrowed s, true, some (.borrowed s), none, none⟩

/-- `a "x" b { c = [1, { k = 2 }] }` with a place for `k`, for `c`, for `b` and for `x`. -/
def rnText : Str := "a \"x\" b {\n c = [1, ({ \"q\" = 3, k = 2 })]\n}".toList

def rnBody (n : Str) : Body := [.attribute (.borrowed ['c']) (.tuple [rnNum ['1'],
  .object [(.expr (.borrowed ['"', 'q', '"']), rnNum ['3']), (.ident (.borrowed n), rnNum ['2'])]])]

theorem rn_read : parseStr asciiClass rnText = .ok [.block (.borrowed ['a']) [.stringLiteral ['x'], .identifier (.borrowed ['b'])] (rnBody ['k'])] := by
  decide +kernel

def rnKey : DocName := ⟨[], .inside (.borrowed ['a']) [.stringLiteral ['x'], .identifier (.borrowed ['b'])] []
  (.key (.borrowed ['c']) (.item [rnNum ['1']] (.identKey [(.expr (.borrowed ['"', 'q', '"']), rnNum ['3'])] (rnNum ['2']) []) [])) [], []⟩
def rnExprKey : DocName := ⟨[], .inside (.borrowed ['a']) [.stringLiteral ['x'], .identifier (.borrowed ['b'])] []
  (.key (.borrowed ['c']) (.item [rnNum ['1']] (.exprKey [] (rnNum ['3']) [(.ident (.borrowed ['k']), rnNum ['2'])]) [])) [], []⟩
def rnLabel : DocName := ⟨[], .stringLabel (.borrowed ['a']) [] [.identifier (.borrowed ['b'])] (rnBody ['k']), []⟩
def rnLabel2 : DocName := ⟨[], .identLabel (.borrowed ['a']) [.stringLiteral ['x']] [] (rnBody ['k']), []⟩

/-- The theorem applies to each of these places. -/
example := c93_name_in_place asciiClass rnKey ['k'] rnText rn_read
example := c93_name_in_place asciiClass rnExprKey ['"', 'q', '"'] rnText rn_read
example := c93_name_in_place asciiClass rnLabel ['x'] rnText rn_read
example := c93_name_in_place asciiClass rnLabel2 ['b'] rnText rn_read
example := c93_bytes_name_in_place asciiClass rnLabel2 ['b'] (utf8 rnText) (by rw [c18_parse_slice_of_text]; exact rn_read)
/-- There are other names for them. -/
example : ∃ x, rnKey.place.Spells asciiClass ['z', '9'] x := ⟨_, rfl, ident_of (.inl (by decide)) (by intro d hd; simp at hd; subst hd; exact .inl (by decide))⟩
example : ∃ x, rnLabel.place.Spells asciiClass ['ö', '\n', '"'] x := ⟨_, c93_any_string _⟩
example : ∃ x, rnExprKey.place.Spells asciiClass ['[', ']'] x :=
  ⟨_, rfl, ⟨.tuple [], by decide +kernel⟩, by rw [head_cons]; exact not_identStart (by decide) (by decide), not_starts_layout (by decide)⟩
/-- And the renamed texts. -/
example : parseStr asciiClass "a \"x\" b {\n c = [1, ({ \"q\" = 3, z9 = 2 })]\n}".toList = .ok (rnKey.fill ['z', '9']) := by decide +kernel
example : parseStr asciiClass "a \"\\u00f6\\n\\\"\" b {\n c = [1, ({ \"q\" = 3, k = 2 })]\n}".toList = .ok (rnLabel.fill ['ö', '\n', '"']) := by decide +kernel
example : parseStr asciiClass "a \"x\" b {\n c = [1, ({ [] = 3, k = 2 })]\n}".toList = .ok (rnExprKey.fill ['[', ']']) := by decide +kernel

example := c93_block_renamed asciiClass [] [] _ _ ['a'] rnText rn_read
example := c93_attribute_renamed asciiClass [] [] ['a'] .null ['a', '=', 'n', 'u', 'l', 'l'] (by decide +kernel)
example := c93_key_in_place asciiClass (.identKey [] .null []) ['k'] ['{', 'k', '=', 'n', 'u', 'l', 'l', '}'] (by decide +kernel)
example := c93_string_once ['a'] _ _ (c93_any_string ['a']) (c93_any_string ['a'])

/-- Not every replacement is one: an identifier label is not replaced by a string label by writing its name. -/
example : ¬ rnLabel2.place.Spells asciiClass ['x', ' ', 'y'] ['x', ' ', 'y'] := by
  rintro ⟨-, h⟩
  generalize hz : ['x', ' ', 'y'] = z at h
  cases h with
  | mk c cs _ hs =>
    injection hz with h1 h2
    subst h2
    exact not_identChar (by decide) (by decide) (hs ' ' (by simp))

/-- Legacy. -/
def rnOld : Str := "a \"x\" \"y\" { \"k\" = [{ m = 1, },], }\nb { c = 2, }".toList
theorem rn_old : fromStr asciiClass (fun _ => none) rnOld none = .ok (.unmerged
    [(.identifier (.borrowed ['a']), .block (.unmerged [([['x'], ['y']], .unmerged [(.string (.ownedS ['k']),
        .list [.object [.unmerged [(.identifier (.borrowed ['m']), .integer 1)]]])])])),
     (.identifier (.borrowed ['b']), .object [.unmerged [(.identifier (.borrowed ['c']), .integer 2)]])]) := by decide +kernel

def rnOldAfter : List (Key × Value) :=
  [(.identifier (.borrowed ['b']), .object [.unmerged [(.identifier (.borrowed ['c']), .integer 2)]])]
def rnOldKey : OldDocName := ⟨[], .inValue (.identifier (.borrowed ['a'])) (.inBlock [['x'], ['y']] [] (.inValue (.string (.ownedS ['k']))
  (.item [] (.entry [] (.identKey (.integer 1)) []) [])) []), rnOldAfter⟩
def rnOldString : OldDocName := ⟨[], .inValue (.identifier (.borrowed ['a'])) (.inBlock [['x'], ['y']] [] (.stringKey
  (.list [.object [.unmerged [(.identifier (.borrowed ['m']), .integer 1)]]])) []), rnOldAfter⟩
def rnOldLabel : OldDocName := ⟨[], .label (.identifier (.borrowed ['a'])) [['x']] [] [(.string (.ownedS ['k']),
        .list [.object [.unmerged [(.identifier (.borrowed ['m']), .integer 1)]]])], rnOldAfter⟩
example := c93_legacy_name_in_place asciiClass _ rnOldKey ['m'] rnOld rn_old
example := c93_legacy_name_in_place asciiClass _ rnOldString ['k'] rnOld rn_old
example := c93_legacy_name_in_place asciiClass _ rnOldLabel ['y'] rnOld rn_old
example : fromStr asciiClass (fun _ => none) "a \"x\" \"y\" { \"k\" = [{ mm = 1, },], }\nb { c = 2, }".toList none =
    .ok (.unmerged (rnOldKey.fill ['m', 'm'])) := by decide +kernel
example : fromStr asciiClass (fun _ => none) "a \"x\" \"\" { \"k\" = [{ m = 1, },], }\nb { c = 2, }".toList none =
    .ok (.unmerged (rnOldLabel.fill [])) := by decide +kernel

end Verif.Witness
