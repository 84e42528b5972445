import Verif.Model.Nom
/-! # Lemmas about the nom combinators -/
set_option autoImplicit false

namespace Verif
variable {α β γ : Type}

@[simp] theorem bind_apply (p : Parser α) (f : α → Parser β) (s : Str) :
    (p >>= f) s = (p s).bind fun r v => f v r := rfl
@[simp] theorem pure_apply (v : α) (s : Str) : (pure v : Parser α) s = .ok s v := rfl

namespace PRes
@[simp] theorem bind_ok (r : Str) (v : α) (f : Str → α → PRes β) : (ok r v).bind f = f r v := rfl
@[simp] theorem bind_err (f : Str → α → PRes β) : (err : PRes α).bind f = err := rfl
@[simp] theorem bind_fail (t : Str) (f : Str → α → PRes β) : (fail t : PRes α).bind f = fail t := rfl
@[simp] theorem bind_panic (f : Str → α → PRes β) : (panic : PRes α).bind f = panic := rfl
@[simp] theorem bind_diverge (f : Str → α → PRes β) : (diverge : PRes α).bind f = diverge := rfl

theorem bind_eq_ok {x : PRes α} {f : Str → α → PRes β} {r : Str} {v : β} :
    x.bind f = ok r v ↔ ∃ r' v', x = ok r' v' ∧ f r' v' = ok r v := by
  cases x <;> simp [and_assoc]

theorem bind_eq_err {x : PRes α} {f : Str → α → PRes β} :
    x.bind f = err ↔ x = err ∨ ∃ r' v', x = ok r' v' ∧ f r' v' = err := by
  cases x <;> simp [and_assoc]

theorem bind_eq_panic {x : PRes α} {f : Str → α → PRes β} :
    x.bind f = panic ↔ x = panic ∨ ∃ r' v', x = ok r' v' ∧ f r' v' = panic := by
  cases x <;> simp [and_assoc]

theorem bind_eq_diverge {x : PRes α} {f : Str → α → PRes β} :
    x.bind f = diverge ↔ x = diverge ∨ ∃ r' v', x = ok r' v' ∧ f r' v' = diverge := by
  cases x <;> simp [and_assoc]

theorem bind_eq_fail {x : PRes α} {f : Str → α → PRes β} {t : Str} :
    x.bind f = fail t ↔ x = fail t ∨ ∃ r' v', x = ok r' v' ∧ f r' v' = fail t := by
  cases x <;> simp [and_assoc]

theorem bind_assoc (x : PRes α) (f : Str → α → PRes β) (g : Str → β → PRes γ) :
    (x.bind f).bind g = x.bind fun r v => (f r v).bind g := by cases x <;> rfl

@[simp] theorem map_ok (g : α → β) (r : Str) (v : α) : (ok r v).map g = ok r (g v) := rfl
@[simp] theorem map_err (g : α → β) : (err : PRes α).map g = err := rfl
@[simp] theorem map_fail (g : α → β) (t : Str) : (fail t : PRes α).map g = fail t := rfl
@[simp] theorem map_panic (g : α → β) : (panic : PRes α).map g = panic := rfl
@[simp] theorem map_diverge (g : α → β) : (diverge : PRes α).map g = diverge := rfl

theorem map_eq_ok {x : PRes α} {g : α → β} {r : Str} {v : β} :
    x.map g = ok r v ↔ ∃ v', x = ok r v' ∧ g v' = v := by
  cases x <;> simp [and_assoc]

@[simp] theorem map_eq_err {x : PRes α} {g : α → β} : x.map g = err ↔ x = err := by cases x <;> simp
@[simp] theorem map_eq_fail {x : PRes α} {g : α → β} {t : Str} : x.map g = fail t ↔ x = fail t := by cases x <;> simp
@[simp] theorem map_eq_panic {x : PRes α} {g : α → β} : x.map g = panic ↔ x = panic := by
  cases x <;> simp
@[simp] theorem map_eq_diverge {x : PRes α} {g : α → β} : x.map g = diverge ↔ x = diverge := by
  cases x <;> simp
end PRes

open PRes

@[simp] theorem mapP_apply (g : α → β) (p : Parser α) (s : Str) : mapP g p s = (p s).map g := rfl

theorem mapP_eq_ok {g : α → β} {p : Parser α} {s r : Str} {v : β} :
    mapP g p s = .ok r v ↔ ∃ v', p s = .ok r v' ∧ g v' = v := map_eq_ok

theorem orElse_eq_ok {p q : Parser α} {s r : Str} {v : α} :
    (p <//> q) s = .ok r v ↔ p s = .ok r v ∨ (p s = .err ∧ q s = .ok r v) := by
  unfold orElse; cases p s <;> simp

theorem orElse_eq_err {p q : Parser α} {s : Str} :
    (p <//> q) s = .err ↔ p s = .err ∧ q s = .err := by
  unfold orElse; cases p s <;> simp

theorem orElse_eq_panic {p q : Parser α} {s : Str} :
    (p <//> q) s = .panic ↔ p s = .panic ∨ (p s = .err ∧ q s = .panic) := by
  unfold orElse; cases p s <;> simp

theorem orElse_eq_fail {p q : Parser α} {s t : Str} :
    (p <//> q) s = .fail t ↔ p s = .fail t ∨ (p s = .err ∧ q s = .fail t) := by
  unfold orElse; cases p s <;> simp

theorem orElse_eq_diverge {p q : Parser α} {s : Str} :
    (p <//> q) s = .diverge ↔ p s = .diverge ∨ (p s = .err ∧ q s = .diverge) := by
  unfold orElse; cases p s <;> simp

theorem orElse_of_ok {p q : Parser α} {s r : Str} {v : α} (h : p s = .ok r v) :
    (p <//> q) s = .ok r v := by simp [orElse, h]

theorem orElse_of_err {p q : Parser α} {s : Str} (h : p s = .err) : (p <//> q) s = q s := by
  simp [orElse, h]

theorem tag_eq_ok {t s r v : Str} : tag t s = .ok r v ↔ s = t ++ r ∧ v = t := by
  unfold tag
  split
  · rename_i h
    rw [List.isPrefixOf_iff_prefix] at h
    obtain ⟨u, rfl⟩ := h
    simp only [PRes.ok.injEq, List.drop_left, List.append_cancel_left_eq]
    exact ⟨fun h => ⟨h.1, h.2.symm⟩, fun h => ⟨h.1, h.2.symm⟩⟩
  · rename_i h
    rw [List.isPrefixOf_iff_prefix] at h
    constructor
    · intro h'; cases h'
    · rintro ⟨rfl, -⟩; exact absurd (List.prefix_append _ _) h

@[simp] theorem tag_append (t r : Str) : tag t (t ++ r) = .ok r t := tag_eq_ok.2 ⟨rfl, rfl⟩

theorem tag_eq_err {t s : Str} : tag t s = .err ↔ ¬ t <+: s := by
  unfold tag
  split
  · rename_i h; rw [List.isPrefixOf_iff_prefix] at h; simp [h]
  · rename_i h; rw [List.isPrefixOf_iff_prefix] at h; simp [h]

theorem tag_ok_or_err (t s : Str) : (∃ r, tag t s = .ok r t) ∨ tag t s = .err := by
  unfold tag; split
  · exact .inl ⟨_, rfl⟩
  · exact .inr rfl

@[simp] theorem tag_cons_self (c : Char) (s : Str) : tag [c] (c :: s) = .ok s [c] := tag_append [c] s

theorem tag_cons_ne {c d : Char} {t s : Str} (h : c ≠ d) : tag (c :: t) (d :: s) = .err := by
  rw [tag_eq_err]; rintro ⟨u, hu⟩; simp at hu; exact h hu.1

@[simp] theorem tag_cons_nil {c : Char} {t : Str} : tag (c :: t) [] = .err := by
  rw [tag_eq_err]; rintro ⟨u, hu⟩; simp at hu

theorem tag_eq_panic {t s : Str} : tag t s ≠ .panic := by unfold tag; split <;> simp
theorem tag_eq_fail {t s u : Str} : tag t s ≠ .fail u := by unfold tag; split <;> simp
theorem tag_eq_diverge {t s : Str} : tag t s ≠ .diverge := by unfold tag; split <;> simp

theorem eof_eq_ok {s r : Str} {v : Unit} : eof s = .ok r v ↔ s = [] ∧ r = [] := by
  unfold eof; cases s <;> simp [eq_comm]

theorem opt_eq_ok {p : Parser α} {s r : Str} {v : Option α} :
    opt p s = .ok r v ↔ (∃ w, p s = .ok r w ∧ v = some w) ∨ (p s = .err ∧ r = s ∧ v = none) := by
  unfold opt; cases p s <;> simp [eq_comm, and_assoc]

theorem peek_eq_ok {p : Parser α} {s r : Str} {v : α} :
    peek p s = .ok r v ↔ r = s ∧ ∃ r', p s = .ok r' v := by
  unfold peek; cases p s <;> simp [eq_comm, and_comm]

theorem verify_eq_ok {p : Parser α} {f : α → Bool} {s r : Str} {v : α} :
    verify p f s = .ok r v ↔ p s = .ok r v ∧ f v = true := by
  unfold verify
  cases h : p s <;> simp
  split
  · rename_i h; constructor
    · rintro h'; injection h' with h1 h2; subst h1 h2; exact ⟨⟨rfl, rfl⟩, h⟩
    · rintro ⟨⟨rfl, rfl⟩, -⟩; rfl
  · rename_i h; constructor
    · intro h'; cases h'
    · rintro ⟨⟨rfl, rfl⟩, h'⟩; exact absurd h' h

theorem mapRes_eq_ok {p : Parser α} {g : α → Option β} {s r : Str} {v : β} :
    mapRes p g s = .ok r v ↔ ∃ w, p s = .ok r w ∧ g w = some v := by
  unfold mapRes
  cases h : p s with
  | ok r' w =>
    cases hg : g w with
    | none =>
      simp [hg]
    | some y =>
      simp [hg]
      constructor
      · rintro ⟨rfl, rfl⟩; exact ⟨w, ⟨rfl, rfl⟩, hg⟩
      · rintro ⟨x, ⟨rfl, rfl⟩, h⟩; rw [hg] at h; exact ⟨rfl, Option.some.inj h⟩
  | _ => simp

theorem takeWhile1_eq_ok {f : Char → Bool} {s r v : Str} :
    takeWhile1 f s = .ok r v ↔ s.takeWhile f ≠ [] ∧ r = s.dropWhile f ∧ v = s.takeWhile f := by
  unfold takeWhile1
  cases h : s.takeWhile f <;> simp [eq_comm]

theorem takeWhile1_eq_err {f : Char → Bool} {s : Str} :
    takeWhile1 f s = .err ↔ s.takeWhile f = [] := by
  unfold takeWhile1
  cases h : s.takeWhile f <;> simp

theorem takeWhile1_ok_or_err (f : Char → Bool) (s : Str) :
    (∃ r v, takeWhile1 f s = .ok r v) ∨ takeWhile1 f s = .err := by
  unfold takeWhile1; split
  · exact .inr rfl
  · exact .inl ⟨_, _, rfl⟩

/-- Splitting at the end of the longest run satisfying `f`. -/
theorem takeWhile_append_of {f : Char → Bool} {v r : Str} (hv : ∀ c ∈ v, f c = true)
    (hr : ∀ c t, r = c :: t → f c = false) :
    (v ++ r).takeWhile f = v ∧ (v ++ r).dropWhile f = r := by
  induction v with
  | nil =>
    cases r with
    | nil => simp
    | cons c t => simp [hr c t rfl]
  | cons c v ih =>
    have := ih (fun d hd => hv d (List.mem_cons_of_mem _ hd))
    simp [hv c (List.mem_cons_self ..), this]

theorem dropWhile_head {f : Char → Bool} {s : Str} {c : Char} {t : Str}
    (h : s.dropWhile f = c :: t) : f c = false := by
  induction s with
  | nil => simp at h
  | cons d s ih =>
    rw [List.dropWhile_cons] at h
    split at h
    · exact ih h
    · rename_i hd; injection h with h1 h2; subst h1; simpa using hd

theorem mem_takeWhile {f : Char → Bool} {s : Str} {c : Char} (h : c ∈ s.takeWhile f) : f c = true := by
  induction s with
  | nil => simp at h
  | cons d s ih =>
    rw [List.takeWhile_cons] at h
    split at h
    · rename_i hd
      rcases List.mem_cons.1 h with rfl | h
      · exact hd
      · exact ih h
    · simp at h

theorem takeWhile1_iff {f : Char → Bool} {s r v : Str} :
    takeWhile1 f s = .ok r v ↔
      s = v ++ r ∧ v ≠ [] ∧ (∀ c ∈ v, f c = true) ∧ ∀ c t, r = c :: t → f c = false := by
  rw [takeWhile1_eq_ok]
  constructor
  · rintro ⟨h, rfl, rfl⟩
    exact ⟨(List.takeWhile_append_dropWhile ..).symm, h, fun c => mem_takeWhile,
      fun c t h => dropWhile_head h⟩
  · rintro ⟨rfl, h1, h2, h3⟩
    have := takeWhile_append_of h2 h3
    rw [this.1, this.2]; exact ⟨h1, rfl, rfl⟩

/-! ## many0 -/

theorem many0Aux_fuel (p : Parser α) : ∀ (n m : Nat) (s : Str), s.length < n → s.length < m →
    many0Aux p n s = many0Aux p m s := by
  intro n
  induction n with
  | zero => intro m s h; omega
  | succ n ih =>
    intro m s hn hm
    cases m with
    | zero => omega
    | succ m =>
      simp only [many0Aux]
      cases h : p s with
      | ok r v =>
        simp only []
        split
        · rw [ih m r (by omega) (by omega)]
        · rfl
      | _ => rfl

/-- The recursion equation of `many0!`. -/
theorem many0_unfold (p : Parser α) (s : Str) :
    many0 p s = match p s with
      | .ok r v => if r.length < s.length then (many0 p r).map (v :: ·) else .ok s []
      | .err => .ok s []
      | .fail t => .fail t
      | .panic => .panic
      | .diverge => .diverge := by
  show many0Aux p (s.length + 1) s = _
  simp only [many0Aux]
  cases h : p s with
  | ok r v =>
    simp only []
    split
    · unfold many0; rw [many0Aux_fuel p s.length (r.length + 1) r (by omega) (by omega)]
    · rfl
  | _ => rfl

theorem many0_cons {p : Parser α} {s r : Str} {v : α} (h : p s = .ok r v) (hl : r.length < s.length) :
    many0 p s = (many0 p r).map (v :: ·) := by
  rw [many0_unfold, h]; simp [hl]

theorem many0_stop {p : Parser α} {s : Str} (h : p s = .err) : many0 p s = .ok s [] := by
  rw [many0_unfold, h]

/-- Inductive characterisation of a successful `many0!` run. -/
inductive Many (p : Parser α) : Str → List α → Str → Prop
  | stop (s : Str) : p s = .err → Many p s [] s
  | stuck (s r : Str) (v : α) : p s = .ok r v → s.length ≤ r.length → Many p s [] s
  | cons (s r : Str) (v : α) (vs : List α) (t : Str) : p s = .ok r v → r.length < s.length →
      Many p r vs t → Many p s (v :: vs) t

theorem many0_eq_ok {p : Parser α} {s r : Str} {vs : List α} :
    many0 p s = .ok r vs ↔ Many p s vs r := by
  constructor
  · intro h
    generalize hn : s.length = n
    induction n using Nat.strongRecOn generalizing s vs with
    | ind n ih =>
    rw [many0_unfold] at h
    split at h
    · rename_i r' v hp
      split at h
      · rename_i hl
        obtain ⟨vs', h1, rfl⟩ := map_eq_ok.1 h
        exact .cons s r' v vs' r hp hl (ih r'.length (by omega) h1 rfl)
      · injection h with h1 h2; subst h1 h2
        exact .stuck s r' v hp (by omega)
    · rename_i hp
      injection h with h1 h2; subst h1 h2
      exact .stop s hp
    all_goals cases h
  · intro h
    induction h with
    | stop s h => exact many0_stop h
    | stuck s r v h hl => rw [many0_unfold, h]; simp; omega
    | cons s r v vs t h hl _ ih => rw [many0_cons h hl, ih]; rfl

/-- `many0!` never returns a recoverable error. -/
theorem many0_ne_err (p : Parser α) (s : Str) : many0 p s ≠ .err := by
  generalize hn : s.length = n
  induction n using Nat.strongRecOn generalizing s with
  | ind n ih =>
  rw [many0_unfold]
  split
  · split
    · simp; exact ih _ (by omega) _ rfl
    · simp
  all_goals simp

/-- `many0!` diverges or panics only if the item parser does, somewhere at or after the start. -/
theorem many0_bad {p : Parser α} {s : Str} (P : Str → Prop) (hs : P s)
    (hstep : ∀ s r v, P s → p s = .ok r v → r.length < s.length → P r) (x : PRes (List α))
    (hx : many0 p s = x) :
    (x = .panic → ∃ t, P t ∧ p t = .panic) ∧ (x = .diverge → ∃ t, P t ∧ p t = .diverge) ∧
    (∀ u, x = .fail u → ∃ t, P t ∧ p t = .fail u) := by
  generalize hn : s.length = n
  induction n using Nat.strongRecOn generalizing s x with
  | ind n ih =>
  rw [many0_unfold] at hx
  split at hx
  · rename_i r v hp
    split at hx
    · rename_i hl
      subst hx
      simp only [map_eq_panic, map_eq_diverge, map_eq_fail]
      exact ih r.length (by omega) (hstep s r v hs hp hl) _ rfl rfl
    · subst hx; simp
  · subst hx; simp
  · subst hx; rename_i hp; simp; exact ⟨s, hs, hp⟩
  · subst hx; rename_i hp; simp; exact ⟨s, hs, hp⟩
  · subst hx; rename_i hp; simp; exact ⟨s, hs, hp⟩

end Verif
