import Verif.Spec.OldSlices
import Verif.Proofs.Slices
/-! # The texts of legacy values are slices -/
set_option autoImplicit false

namespace Verif
open Spec

theorem slices_oldLabels {ls : List Str} {s : Str} (h : LaidOldLabels ls s) : Slices (ls.map .ownedS) s := by
  induction h with
  | nil => exact .nil _
  | cons l src v s ls hl hc hs ih =>
    exact slices_append (ts := [CowStr.ownedS v]) (slices_front l (slices_cons _ (slices_quoted hc))) (slices_cons _ ih)

theorem slices_oldKey {U : CharClass} {k : Key} {s : Str} (h : LaidOldKey U k s) : Slices [oldKeyText k] s := by
  cases h with
  | ident i h => exact slices_one _
  | string src v hc => exact slices_cons _ (slices_back _ (slices_quoted hc))

theorem slices_ownedS {v : CowStr} {s : Str} (h : Slices [v] s) : Slices [.ownedS v.str] s := by
  cases h with
  | borrowed g t r _ h => exact .owned g t r _ _ (Nat.le_refl _) (Nat.le_refl _) h
  | owned g t r v _ h1 h2 h => exact .owned g t r v _ h1 h2 h

theorem numberValue_texts {P : F64Parse} {t : Str} {v : Value} (h : NumberValue P t v) : valueTexts v = [] := by
  cases h <;> simp [valueTexts]

section
variable {U : CharClass} {P : F64Parse}

mutual
theorem slices_value : ∀ {h : Option Str} {v : Value} {s : Str}, LaidValue U P h v s → Slices (valueTexts v) s
  | _, _, _, .null => .nil _
  | _, _, _, .true => .nil _
  | _, _, _, .false => .nil _
  | _, _, _, .number t n v _ hv => by rw [numberValue_texts hv]; exact .nil _
  | _, _, _, .quoted src v hc => slices_cons _ (slices_back _ (slices_quoted hc))
  | _, _, _, .heredoc t e v _ hh => slices_ownedS (slices_heredoc hh)
  | _, _, _, .list vs s hx => slices_cons _ (slices_listBody hx)
  | _, _, _, .map l es s _ hx => by
    simp only [valueTexts, mapsTexts, List.append_nil]
    exact slices_back _ (slices_front _ (slices_cons _ (slices_entries hx)))
theorem slices_listBody : ∀ {vs : List Value} {s : Str}, LaidListBody U P vs s → Slices (valuesTexts vs) s
  | _, _, .empty s _ => .nil _
  | _, _, .elems l t s h v vs _ hx ht _ => by
    rw [valuesTexts]
    exact slices_append (slices_front _ (slices_value hx)) (slices_listTail ht)
theorem slices_listTail : ∀ {vs : List Value} {s : Str}, LaidListTail U P vs s → Slices (valuesTexts vs) s
  | _, _, .last s _ => .nil _
  | _, _, .more l m t s h v vs _ _ hx ht _ => by
    rw [valuesTexts]
    exact slices_append (slices_front _ (slices_value hx)) (slices_listTail ht)
theorem slices_entries : ∀ {es : List (Key × Value)} {s : Str}, LaidEntries U P es s → Slices (entriesTexts es) s
  | _, _, .done l _ => .nil _
  | _, _, .entry l s n t h k v es _ hx _ _ ht => by
    rw [entriesTexts, ← List.cons_append]
    exact slices_append (slices_back _ (slices_front _ (slices_entry hx))) (slices_entries ht)
theorem slices_entry : ∀ {h : Option Str} {k : Key} {v : Value} {s : Str}, LaidEntry U P h k v s →
    Slices (oldKeyText k :: valueTexts v) s
  | _, _, _, _, .attribute ks l m t n h k v hk _ _ hx _ _ => by
    have := slices_append (slices_oldKey hk) (slices_front (l ++ '=' :: m) (slices_back n (slices_value hx)))
    simpa using this
  | _, _, _, _, .map i l s n es _ _ hx _ => by
    have := slices_append (slices_one i) (slices_front (l ++ ['{']) (slices_back ('}' :: n) (slices_entries hx)))
    simpa [valueTexts, mapsTexts, oldKeyText] using this
  | _, _, _, _, .block i ps l s n ls es _ hl _ _ hx _ => by
    have := slices_append (slices_append (slices_one i) (slices_oldLabels hl))
      (slices_front (l ++ ['{']) (slices_back ('}' :: n) (slices_entries hx)))
    simpa [valueTexts, blocksTexts, oldKeyText] using this
end

theorem entriesTexts_append (a b : List (Key × Value)) : entriesTexts (a ++ b) = entriesTexts a ++ entriesTexts b := by
  induction a with
  | nil => rfl
  | cons x a ih => obtain ⟨k, v⟩ := x; simp [entriesTexts, ih]

theorem slices_oldDocument {es : List (Key × Value)} {s : Str} (h : LaidOldDocument U P es s) : Slices (entriesTexts es) s := by
  cases h with
  | lines es s h => exact slices_entries h
  | last es s k v t h h' =>
    rw [entriesTexts_append]
    have := slices_append (slices_entries h) (slices_entry h')
    simpa [entriesTexts] using this

end
end Verif
