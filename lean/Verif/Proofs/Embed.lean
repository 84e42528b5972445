import Verif.Proofs.Laid
import Verif.Proofs.Calls
import Verif.Proofs.Position
import Verif.Proofs.OldParser
import Verif.Proofs.Replace
/-! # Documents inside blocks -/
set_option autoImplicit false

namespace Verif
open Spec

section
variable {U : CharClass}

theorem laidBody_append_layout {b : Body} {s : Str} (h : LaidBody U b s) {m : Str} (hm : AnyLayout m) : LaidBody U b (s ++ m) := by
  refine LaidBody.rec (motive_1 := fun _ _ _ _ => True) (motive_2 := fun b s _ => LaidBody U b (s ++ m)) ?_ ?_ ?_ ?_ ?_ ?_ h
  · intros; trivial
  · intros; trivial
  · intros; trivial
  · intros; trivial
  · intro l hl; exact .done _ (hl.append hm)
  · intro l s n t h el b hl he hn hx _ _ ih
    have := LaidBody.elem l s n (t ++ m) h el b hl he hn hx ih
    simpa using this

theorem laidBody_append {b c : Body} {s t : Str} (h : LaidBody U b s) (ht : LaidBody U c t) : LaidBody U (b ++ c) (s ++ t) := by
  refine LaidBody.rec (motive_1 := fun _ _ _ _ => True) (motive_2 := fun b s _ => LaidBody U (b ++ c) (s ++ t)) ?_ ?_ ?_ ?_ ?_ ?_ h
  · intros; trivial
  · intros; trivial
  · intros; trivial
  · intros; trivial
  · intro l hl
    cases ht with
    | done m hm => exact .done _ (hl.append hm)
    | elem m s' n' t' h' el' b' hm he' hn' hx' hb' =>
      have := LaidBody.elem (l ++ m) s' n' t' h' el' b' (hl.append hm) he' hn' hx' hb'
      simpa using this
  · intro l s n t' h el b hl he hn hx _ _ ih
    have := LaidBody.elem l s n (t' ++ t) h el (b ++ c) hl he hn hx ih
    simpa using this

theorem lineEnds_lf : LineEnds ['\n'] := .mk ['\n'] [] (.eol _ .lf) .nil

/-- with a line end behind it, a document is a body -/
theorem laidDocument_line {b : Body} {s : Str} (h : LaidDocument U b s) : LaidBody U b (s ++ ['\n']) := by
  cases h with
  | lines _ _ h => exact laidBody_append_layout h (.single (.space _ (by simp)))
  | last b s el t h he =>
    have := LaidBody.elem [] t ['\n'] [] none el [] .nil he lineEnds_lf (.none _) (.done _ .nil)
    have := laidBody_append h this
    simpa using this

theorem seq_layout_last {w : Str} (h : Seq LayoutItem w) {x : Str} (hx : w = x ++ ['}']) : False := by
  induction h generalizing x with
  | nil => cases x <;> cases hx
  | cons i s hi _ ih =>
    rcases List.eq_nil_or_concat s with rfl | ⟨s', c, rfl⟩
    · rw [List.append_nil] at hx
      have hl : i.getLast? = some '}' := by rw [hx]; simp
      cases hi with
      | space c hc =>
        simp at hl; subst hl
        revert hc; decide
      | line _ hc =>
        cases hc with
        | hash b e _ he =>
          cases he with
          | lf =>
            have h2 := List.append_inj_right' (s₁ := '#' :: b) (t₁ := ['\n']) hx rfl
            cases h2
          | crlf =>
            have h1 : ('#' :: b ++ ['\r']) ++ ['\n'] = x ++ ['}'] := by simpa using hx
            cases List.append_inj_right' h1 rfl
        | slash b e _ he =>
          cases he with
          | lf =>
            have h2 := List.append_inj_right' (s₁ := '/' :: '/' :: b) (t₁ := ['\n']) hx rfl
            cases h2
          | crlf =>
            have h1 : ('/' :: '/' :: b ++ ['\r']) ++ ['\n'] = x ++ ['}'] := by simpa using hx
            cases List.append_inj_right' h1 rfl
      | comment _ hc =>
        cases hc with
        | mk b _ =>
          have h1 : ('/' :: '*' :: b ++ ['*']) ++ ['/'] = x ++ ['}'] := by simpa using hx
          cases List.append_inj_right' h1 rfl
    · rw [List.concat_eq_append, ← List.append_assoc] at hx
      have := List.append_inj_right' hx rfl
      exact ih (x := s') (by rw [List.concat_eq_append, this])

/-- does not end in a line end -/
def NotLineEnd (t : Str) : Prop := ∃ x c, t = x ++ [c] ∧ c ≠ '\n'

theorem NotLineEnd.append {t : Str} (h : NotLineEnd t) (s : Str) : NotLineEnd (s ++ t) := by
  obtain ⟨x, c, rfl, hc⟩ := h
  exact ⟨s ++ x, c, by simp, hc⟩

theorem NotLineEnd.cons {t : Str} (h : NotLineEnd t) (c : Char) : NotLineEnd (c :: t) := h.append [c]

theorem notLineEnd_single {c : Char} (h : c ≠ '\n') : NotLineEnd [c] := ⟨[], c, rfl, h⟩

theorem NotLineEnd.inline {l : Str} (hl : Seq InlineItem l) {t : Str} (h : NotLineEnd t) : NotLineEnd (t ++ l) := by
  induction hl generalizing t with
  | nil => simpa using h
  | cons i s hi _ ih =>
    rw [← List.append_assoc]
    refine ih ?_
    cases hi with
    | blank c hc => exact (notLineEnd_single (by rintro rfl; revert hc; decide)).append t
    | comment _ hc =>
      cases hc with
      | mk b _ => exact ⟨t ++ '/' :: '*' :: b ++ ['*'], '/', by simp, by decide⟩

theorem notLineEnd_tupleEnd {s : Str} (h : LaidTupleEnd s) : NotLineEnd s := by
  cases h with
  | close l _ => exact (notLineEnd_single (by decide)).append _
  | comma l m _ _ => exact (notLineEnd_single (by decide)).append _

theorem notLineEnd_laidExpr {h : Option Str} {e : Expr} {t : Str} (hx : LaidExpr U h e t) : h = none → NotLineEnd t := by
  refine LaidExpr.rec (motive_1 := fun h _ t _ => h = none → NotLineEnd t) (motive_2 := fun _ s _ => NotLineEnd s)
    (motive_3 := fun _ s _ => NotLineEnd s) (motive_4 := fun _ _ _ => True) (motive_5 := fun _ _ _ _ _ => True)
    (motive_6 := fun _ s _ => NotLineEnd s) ?_ ?_ ?_ ?_ ?_ ?_ ?_ ?_ ?_ ?_ ?_ ?_ ?_ ?_ ?_ ?_ ?_ ?_ ?_ ?_ hx
  · exact fun _ => ⟨['n', 'u', 'l'], 'l', rfl, by decide⟩
  · exact fun _ => ⟨['t', 'r', 'u'], 'e', rfl, by decide⟩
  · exact fun _ => ⟨['f', 'a', 'l', 's'], 'e', rfl, by decide⟩
  · intro t n hn _
    rcases List.eq_nil_or_concat t with rfl | ⟨x, c, rfl⟩
    · exact absurd rfl (isNumber_ne_nil hn)
    · refine ⟨x, c, List.concat_eq_append, ?_⟩
      rintro rfl
      have := isNumber_chars hn '\n' (by simp)
      revert this
      simp [NumChar, IsDig]
  · intro src v _ _; exact (notLineEnd_single (by decide)).append _
  · intro t e v _ _ h0; cases h0
  · intro es s _ ih _; exact ih.cons _
  · intro l es s _ _ ih _; exact (ih.cons _).append _
  · intros; exact (notLineEnd_single (by decide)).append _
  · intro s hs; exact notLineEnd_tupleEnd hs
  · intro l t s h e es _ _ _ _ _ ih; exact ih.append _
  · intro s hs; exact notLineEnd_tupleEnd hs
  · intro l m t s h e es _ _ _ _ _ _ ih; exact ih.append _
  · intros; trivial
  · intros; trivial
  · intros; trivial
  · intros; exact (notLineEnd_single (by decide)).append _
  · intro p l s k e es _ _ _ _ ih; exact (ih.cons _).append _
  · intro p l n s h k e es _ _ _ _ _ _ ih; exact ih.append _
  · intros; exact (notLineEnd_single (by decide)).append _

theorem notLineEnd_laidElement {el : BodyElement} {t : Str} (h : LaidElement U none el t) : NotLineEnd t := by
  cases h with
  | «attribute» _ k e _ ha =>
    cases ha with
    | mk i l m t n _ _ h1 h2 h3 h4 h5 h6 => exact NotLineEnd.inline h5 ((notLineEnd_laidExpr h4 rfl).append _)
  | emptyBlock i ls s l m h1 h2 h3 =>
    have := NotLineEnd.inline h3 ((notLineEnd_single (c := '}') (by decide)).append (s ++ l))
    simpa using this
  | oneLineBlock i ls s l a m k e h1 h2 h3 h4 =>
    have := NotLineEnd.inline h4 ((notLineEnd_single (c := '}') (by decide)).append (s ++ l ++ a))
    simpa using this
  | block i ls s l n t m b h1 h2 h3 h4 h5 =>
    have := NotLineEnd.inline h5 ((notLineEnd_single (c := '}') (by decide)).append (s ++ l ++ n ++ t))
    simpa using this

theorem element_not_line {el : BodyElement} {t x s0 : Str} (h : LaidElement U none el t) (e : s0 ++ t = x ++ ['\n']) : False := by
  obtain ⟨y, c, rfl, hc⟩ := notLineEnd_laidElement h
  rw [← List.append_assoc] at e
  have := List.append_inj_right' e rfl
  cases this
  exact hc rfl

/-- a document between the braces of a block -/
theorem block_document {i : CowStr} {ls : List BlockLabel} {hdr s : Str} (hh : LaidHeader U i ls hdr) (el : BodyElement) :
    Document U (hdr ++ '\n' :: s ++ ['\n', '}']) [el] ↔ ∃ b, el = .block i ls b ∧ Document U (s ++ ['\n']) b := by
  constructor
  · intro hD
    obtain ⟨j, t0, rfl, hi, hl⟩ := laidHeader_spec hh ('\n' :: s ++ ['\n', '}'])
    have etext : hdr ++ '\n' :: s ++ ['\n', '}'] = hdr ++ ('\n' :: s ++ ['\n', '}']) := by simp
    unfold Document at hD
    rw [etext] at hD
    obtain ⟨t, u, v, h1, h2, h3, h4⟩ : ∃ t u v, SkipLayout (hdr ++ ('\n' :: s ++ ['\n', '}'])) t ∧ IsElement U t el u ∧
        IsElementEnd u v ∧ IsBody U v [] [] := by
      cases hD; exact ⟨_, _, _, ‹_›, ‹_›, ‹_›, ‹_›⟩
    have e0 := h1.functional layoutItem_prefix (skipLayout_ident hi)
    subst e0
    have hv : SkipLayout v [] := by cases h4; assumption
    have hni : ¬ Starts InlineItem ('\n' :: s ++ ['\n', '}']) := not_inline_of (by decide) (by decide) (by decide)
    cases h2 with
    | «attribute» _ k e _ ha =>
      exfalso
      cases ha with
      | mk =>
        rename_i j' t' u' v' w' g1 g2 g3 g4 g5
        obtain ⟨-, rfl⟩ := ident_functional hi g1
        exact not_labels_eq g2 hl
    | emptyBlock _ j' t' u' v' _ ls' g1 g2 g3 g4 =>
      exfalso
      obtain ⟨-, rfl⟩ := ident_functional hi g1
      obtain ⟨-, rfl⟩ := isLabels_functional hl g2
      have := skip_eq_of_not_starts g3 hni
      cases this
    | oneLineBlock _ j' t' u' u'' v' _ ls' k e g1 g2 g3 g4 g5 =>
      exfalso
      obtain ⟨-, rfl⟩ := ident_functional hi g1
      obtain ⟨-, rfl⟩ := isLabels_functional hl g2
      have := skip_eq_of_not_starts g3 hni
      subst this
      cases g4 with
      | mk =>
        rename_i f1 f2 f3 f4 f5
        obtain ⟨c, y, hy, hc⟩ := ident_start f1
        cases hy
        exact hc (by simp [LayoutStart])
    | block _ j' t' u' u'' v' w _ ls' b g1 g2 g3 g4 g5 g6 =>
      obtain ⟨rfl, rfl⟩ := ident_functional hi g1
      obtain ⟨rfl, rfl⟩ := isLabels_functional hl g2
      have := skip_eq_of_not_starts g3 hni
      subst this
      refine ⟨b, rfl, ?_⟩
      obtain ⟨n, hn, en⟩ := newlines_layout g4
      rcases isBody_laid g5 with ⟨p, rfl, hp⟩ | ⟨h0, -⟩
      · have hw : Seq LayoutItem w := by
          obtain ⟨l1, hl1, rfl, -⟩ := g6
          obtain ⟨l2, hl2, hv, -⟩ := hv
          rw [List.append_nil] at hv; subst hv
          refine (seq_inline_layout hl1).append ?_
          cases h3 with
          | newline _ _ h3 =>
            obtain ⟨l3, hl3, rfl⟩ := newlines_layout h3
            exact hl3.append hl2
          | eof => exact .nil
        have hw0 : w = [] := by
          rcases List.eq_nil_or_concat w with rfl | ⟨w', c, rfl⟩
          · rfl
          · exfalso
            rw [List.concat_eq_append] at en hw
            have e1 : ('\n' :: s ++ ['\n']) ++ ['}'] = (n ++ (p ++ '}' :: w')) ++ [c] := by simpa using en
            have e2 := List.append_inj_right' e1 rfl
            cases e2
            exact seq_layout_last hw rfl
        subst hw0
        have e1 : ('\n' :: s ++ ['\n']) ++ ['}'] = (n ++ p) ++ ['}'] := by simpa using en
        have e2 : '\n' :: (s ++ ['\n']) = n ++ p := by simpa using List.append_inj_left' e1 rfl
        have h5 : IsBody U (p ++ []) (b ++ []) [] := laidBody_isBody hp _ _ _ (.done _ _ (.refl not_starts_nil))
        rw [List.append_nil, List.append_nil] at h5
        have h6 : IsBody U ('\n' :: (s ++ ['\n'])) b [] := by rw [e2]; exact isBody_prepend hn h5
        have hnl : Seq LayoutItem ['\n'] := .single (.space _ (by simp))
        exact isBody_unprepend (l := ['\n']) hnl h6
      · cases h0
  · rintro ⟨b, rfl, hD⟩
    refine laidDocument_document ?_
    -- the line end is needed once only
    have hb : LaidBody U b (s ++ ['\n']) := by
      have hx := document_laid hD
      generalize hz : s ++ ['\n'] = z at hx
      cases hx with
      | lines _ _ h => exact h
      | last b0 s0 el0 t0 h he =>
        exfalso
        have he' := laidElement_isElement he [] [] (.refl (not_starts_inline not_starts_nil)) (.none _) Head.not_nil
        rw [List.append_nil] at he'
        exact element_not_line he (x := s) (s0 := s0) hz.symm
    have := LaidElement.block i ls hdr [] ['\n'] (s ++ ['\n']) [] b hh .nil lineEnds_lf hb .nil
    have := LaidDocument.last [] [] _ _ (LaidBody.done [] .nil) this
    simpa using this

/-- the value of an attribute that is a document -/
theorem attribute_value {k s : Str} {e : Expr} (hk : IsIdent U k) (h : Document U (k ++ '=' :: s) [.attribute (.borrowed k) e]) :
    LaidExpr U none e ('(' :: s ++ ['\n', ')']) := by
  have hne : ¬ Head (IdentChar U) ('=' :: s) := by
    rintro ⟨c, y, e, hc⟩
    injection e with e _
    subst e
    exact not_identChar (by decide) (by decide) hc
  have hi : Ident U (k ++ '=' :: s) k ('=' :: s) := ⟨rfl, hk, hne⟩
  unfold Document at h
  obtain ⟨t, u, v, h1, h2, h3, h4⟩ : ∃ t u v, SkipLayout (k ++ '=' :: s) t ∧ IsElement U t (.attribute (.borrowed k) e) u ∧
      IsElementEnd u v ∧ IsBody U v [] [] := by
    cases h; exact ⟨_, _, _, ‹_›, ‹_›, ‹_›, ‹_›⟩
  have e0 := h1.functional layoutItem_prefix (skipLayout_ident hi)
  subst e0
  have hv : SkipLayout v [] := by cases h4; assumption
  generalize hz : BodyElement.attribute (.borrowed k) e = z at h2
  cases h2 with
  | «attribute» _ k' e' _ ha =>
    injection hz with hz1 hz2
    subst hz2
    cases ha with
    | mk =>
      rename_i j t u' v' w g1 g2 g3 g4 g5
      obtain ⟨-, rfl⟩ := ident_functional hi g1
      have := skip_eq_of_not_starts g2 (not_inline_of (by decide) (by decide) (by decide))
      injection this with _ this
      subst this
      obtain ⟨l1, hl1, rfl, -⟩ := g3
      obtain ⟨t, hn, rfl, ht, he⟩ := isExpr_laid g4
      obtain ⟨l2, hl2, rfl, -⟩ := g5
      obtain ⟨l3, hl3, hv, -⟩ := hv
      rw [List.append_nil] at hv
      subst hv
      have hu : Seq LayoutItem u := by
        cases h3 with
        | newline _ _ h3 =>
          obtain ⟨l4, hl4, rfl⟩ := newlines_layout h3
          exact hl4.append hl3
        | eof => exact .nil
      have hnl : Seq LayoutItem ['\n'] := .single (.space _ (by simp))
      have := LaidExpr.bracket [] l1 (l2 ++ u ++ ['\n']) t hn e .nil (seq_inline_layout hl1) ht
        (((seq_inline_layout hl2).append hu).append hnl) (by
          have := he.next.append ['\n', ')']
          simpa using this)
      simpa using this
  | emptyBlock => cases hz
  | oneLineBlock => cases hz
  | block => cases hz

theorem laidTail_intercalate {xs : List (Str × Expr)} (h : ∀ x ∈ xs, LaidExpr U none x.2 x.1) :
    LaidTail U (xs.map (·.2)) (xs.flatMap (fun x => ',' :: x.1) ++ [']']) := by
  induction xs with
  | nil => exact .last _ (.close [] .nil)
  | cons x xs ih =>
    have := LaidTail.more [] [] x.1 _ none x.2 _ .nil .nil (h x (by simp)) (ih fun y hy => h y (by simp [hy])) (.none _)
    simpa using this

theorem intercalate_cons {c : Char} (x : Str) (xs : List Str) : [c].intercalate (x :: xs) = x ++ xs.flatMap (fun y => c :: y) := by
  induction xs generalizing x with
  | nil => simp
  | cons y ys ih => simp [ih, List.intercalate_cons_cons]

theorem laidTuple_intercalate {xs : List (Str × Expr)} (h : ∀ x ∈ xs, LaidExpr U none x.2 x.1) :
    LaidTuple U (xs.map (·.2)) ([','].intercalate (xs.map (·.1)) ++ [']']) := by
  cases xs with
  | nil => exact .empty _ (.close [] .nil)
  | cons x xs =>
    have := LaidTuple.elems [] x.1 _ none x.2 _ .nil (h x (by simp)) (laidTail_intercalate (fun y hy => h y (by simp [hy])) (xs := xs))
      (.none _)
    simpa [intercalate_cons, List.flatMap_map] using this

theorem laidObject_intercalate {xs : List (Str × Str × Expr)} (hk : ∀ x ∈ xs, IsIdent U x.1)
    (h : ∀ x ∈ xs, LaidExpr U none x.2.2 x.2.1) :
    LaidObject U (xs.map fun x => (.ident (.borrowed x.1), x.2.2)) ([','].intercalate (xs.map fun x => x.1 ++ '=' :: x.2.1) ++ ['}']) := by
  have hp : ∀ x ∈ xs, LaidPair U none (.ident (.borrowed x.1)) x.2.2 (x.1 ++ '=' :: x.2.1) := by
    intro x hx
    have := LaidPair.mk (U := U) [] x.1 [] [] x.2.1 none _ _ .nil (.ident _ (hk x hx)) .nil .nil (h x hx)
    simpa using this
  clear hk h
  induction xs with
  | nil => exact .close [] .nil
  | cons x xs ih =>
    have hx := hp x (by simp)
    have ih := ih fun y hy => hp y (by simp [hy])
    cases xs with
    | nil =>
      have := LaidObject.last _ [] _ _ hx .nil
      simpa using this
    | cons y ys =>
      have := LaidObject.comma _ [] _ _ _ _ hx .nil ih
      simpa [List.intercalate_cons_cons] using this

end
end Verif
