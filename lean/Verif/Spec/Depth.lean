import Verif.Model.Nom
/-!
# Nesting: texts and measures used by C73 and C74
-/
set_option autoImplicit false

namespace Verif

/-- the number of opening brackets `[`, `{`, `(` in a text -/
def openers (s : Str) : Nat := s.countP fun c => c == '[' || c == '{' || c == '('

/-- `a{`, `n` times -/
def nested : Nat → Str
  | 0 => []
  | n + 1 => 'a' :: '{' :: nested n

/-- `a{` and a line end, `n` times -/
def deepBlocks : Nat → Str
  | 0 => []
  | n + 1 => 'a' :: '{' :: '\n' :: deepBlocks n

/-- `a={`, `n` times, then `a=` -/
def deepAttrs : Nat → Str
  | 0 => ['a', '=']
  | n + 1 => 'a' :: '=' :: '{' :: deepAttrs n

end Verif
