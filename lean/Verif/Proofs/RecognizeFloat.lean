import Verif.Model.OldParser
import Verif.Proofs.Nom
/-! # nom's `recognize_float` recognises the text of number.rs `number` -/
set_option autoImplicit false

namespace Verif
open PRes

/-- Two parsers have the same outcomes but for the values. -/
def SameRest {α β : Type} (p : Parser α) (q : Parser β) : Prop := ∀ s, (p s).map (fun _ => ()) = (q s).map (fun _ => ())

namespace SameRest
variable {α β γ δ : Type}

theorem cases {p : Parser α} {q : Parser β} (h : SameRest p q) (s : Str) :
    (∃ r v w, p s = .ok r v ∧ q s = .ok r w) ∨ (p s = .err ∧ q s = .err) ∨ (∃ z, p s = .fail z ∧ q s = .fail z) ∨
      (p s = .panic ∧ q s = .panic) ∨ (p s = .diverge ∧ q s = .diverge) := by
  have h := h s
  cases hp : p s <;> cases hq : q s <;> rw [hp, hq] at h <;> simp only [PRes.map, PRes.bind] at h <;> try cases h
  all_goals simp

theorem rfl (p : Parser α) : SameRest p p := fun _ => _root_.rfl

theorem bind {p : Parser α} {q : Parser β} {f : α → Parser γ} {g : β → Parser δ} (h : SameRest p q)
    (h' : ∀ v w, SameRest (f v) (g w)) : SameRest (p >>= f) (q >>= g) := by
  intro s
  show ((p s).bind fun r v => f v r).map _ = ((q s).bind fun r v => g v r).map _
  rcases h.cases s with ⟨r, v, w, h1, h2⟩ | ⟨h1, h2⟩ | ⟨z, h1, h2⟩ | ⟨h1, h2⟩ | ⟨h1, h2⟩ <;> rw [h1, h2]
  · exact h' v w r
  all_goals rfl

theorem orElse {p p' : Parser α} {q q' : Parser β} (h : SameRest p q) (h' : SameRest p' q') : SameRest (p <//> p') (q <//> q') := by
  intro s
  unfold Verif.orElse
  rcases h.cases s with ⟨r, v, w, h1, h2⟩ | ⟨h1, h2⟩ | ⟨z, h1, h2⟩ | ⟨h1, h2⟩ | ⟨h1, h2⟩ <;> rw [h1, h2]
  · rfl
  · exact h' s
  all_goals rfl

theorem opt {p : Parser α} {q : Parser β} (h : SameRest p q) : SameRest (opt p) (opt q) := by
  intro s
  unfold Verif.opt
  rcases h.cases s with ⟨r, v, w, h1, h2⟩ | ⟨h1, h2⟩ | ⟨z, h1, h2⟩ | ⟨h1, h2⟩ | ⟨h1, h2⟩ <;> rw [h1, h2] <;> rfl

theorem mapR {p : Parser α} {q : Parser β} (h : SameRest p q) (f : β → γ) : SameRest p (fun s => (q s).map f) := by
  intro s
  rcases h.cases s with ⟨r, v, w, h1, h2⟩ | ⟨h1, h2⟩ | ⟨z, h1, h2⟩ | ⟨h1, h2⟩ | ⟨h1, h2⟩ <;> simp only [h1, h2] <;> rfl

theorem recognize {p : Parser α} {q : Parser β} (h : SameRest p q) : recognize p = recognize q := by
  funext s
  unfold Verif.recognize
  rcases h.cases s with ⟨r, v, w, h1, h2⟩ | ⟨h1, h2⟩ | ⟨z, h1, h2⟩ | ⟨h1, h2⟩ | ⟨h1, h2⟩ <;> rw [h1, h2] <;> rfl

end SameRest

theorem recognizeFloat_eq : recognizeFloat = recognize number := by
  refine SameRest.recognize ?_
  have hsign : SameRest (opt (tag ['+'] <//> tag ['-'])) numSign := (SameRest.rfl _).mapR _
  have hman : SameRest ((do
      let _ ← digit
      let _ ← opt (do let _ ← tag ['.']; opt digit)
      pure ()) <//> (do
      let _ ← tag ['.']
      let _ ← digit
      pure ()) : Parser Unit) mantissa :=
    .orElse (.bind (.rfl _) fun _ _ => .bind (.rfl _) fun _ _ _ => rfl) (.bind (.rfl _) fun _ _ => .bind (.rfl _) fun _ _ _ => rfl)
  have hexp : SameRest (opt (do
      let _ ← tag ['e'] <//> tag ['E']
      let _ ← opt (tag ['+'] <//> tag ['-'])
      digit) : Parser (Option Str)) exponentP :=
    .opt (.bind (.rfl _) fun _ _ => .bind hsign fun _ _ => ?_)
  · intro s
    have h : SameRest _ (numSign >>= fun _ => mantissa >>= fun _ => exponentP) := hsign.bind fun _ _ => hman.bind fun _ _ => hexp
    refine (h s).trans ?_
    show ((numSign s).bind fun r _ => (mantissa r).bind fun r _ => exponentP r).map _ = _
    unfold number
    cases numSign s with
    | ok r v =>
      simp only [bind_ok]
      cases mantissa r with
      | ok r v =>
        simp only [bind_ok]
        cases exponentP r <;> rfl
      | _ => rfl
    | _ => rfl
  · intro s
    show _ = ((digit >>= fun d => pure _) s).map _
    show _ = ((digit s).bind _).map _
    cases digit s <;> rfl

theorem oldNumber_eq (P : F64Parse) : oldNumber P = mapRes (recognize number) (numberValue P) := by
  unfold oldNumber; rw [recognizeFloat_eq]

end Verif
