import Verif.Model.Incomplete
import Verif.Spec.Incomplete
import Verif.Proofs.LineEnds
/-! # `Err::Incomplete` can be taken for an error -/
set_option autoImplicit false

namespace Verif
open PRes Spec

/-- `Incomplete` as an error. -/
def IRes.erase {α : Type} : IRes α → PRes α
  | .done x => x
  | .incomplete => .err

section
variable {α β : Type}

theorem erase_lift (p : Parser α) (s : Str) : (IParser.lift p s).erase = p s := rfl

theorem ibind_apply (p : IParser α) (f : α → IParser β) (s : Str) : (p >>= f) s = match p s with
  | .incomplete => .incomplete
  | .done (.ok r v) => f v r
  | .done .err => .done .err
  | .done (.fail t) => .done (.fail t)
  | .done .panic => .done .panic
  | .done .diverge => .done .diverge := rfl

theorem ibind_ok {p : IParser α} {f : α → IParser β} {s r : Str} {v : α} (h : p s = .done (.ok r v)) : (p >>= f) s = f v r := by
  rw [ibind_apply, h]

theorem ibind_err {p : IParser α} {f : α → IParser β} {s : Str} (h : p s = .done .err) : (p >>= f) s = .done .err := by
  rw [ibind_apply, h]

theorem ibind_incomplete_iff {p : IParser α} {f : α → IParser β} {s : Str} :
    (p >>= f) s = .incomplete ↔ p s = .incomplete ∨ ∃ r v, p s = .done (.ok r v) ∧ f v r = .incomplete := by
  rw [ibind_apply]
  cases h : p s with
  | incomplete => simp
  | done x =>
    cases x with
    | ok r v =>
      refine ⟨fun hf => .inr ⟨r, v, rfl, hf⟩, ?_⟩
      rintro (h | ⟨_, _, h, hf⟩)
      · cases h
      · cases h; exact hf
    | _ => simp

theorem erase_bind {p : IParser α} {q : Parser α} {f : α → IParser β} {g : α → Parser β} {s : Str} (hp : (p s).erase = q s)
    (hf : ∀ v r, q s = .ok r v → (f v r).erase = g v r) : ((p >>= f) s).erase = (q >>= g) s := by
  rw [ibind_apply, bind_apply]
  cases h : p s with
  | incomplete => rw [h] at hp; rw [← hp]; rfl
  | done x =>
    rw [h] at hp
    have hp : x = q s := hp
    rw [← hp] at hf ⊢
    cases x with
    | ok r v => exact hf v r rfl
    | _ => rfl

theorem erase_mapP {p : IParser α} {q : Parser α} {s : Str} (g : α → β) (hp : (p s).erase = q s) :
    (IParser.mapP g p s).erase = mapP g q s := by
  have : mapP g q s = (q >>= fun v => (Parser.pure (g v) : Parser β)) s := rfl
  rw [this]
  exact erase_bind (f := fun v => IParser.lift (Parser.pure (g v))) hp fun v r _ => rfl

theorem erase_complete (p : IParser α) (s : Str) : (p.complete s).erase = (p s).erase := by
  unfold IParser.complete
  cases h : p s <;> rfl

theorem erase_alt {p p' : IParser α} {q q' : Parser α} {s : Str} (hp : (p s).erase = q s) (hq : (p' s).erase = q' s)
    (hi : p s = .incomplete → q' s = .err) : ((p.alt p') s).erase = (q <//> q') s := by
  unfold IParser.alt orElse
  cases h : p s with
  | incomplete =>
    have := hi h
    rw [h] at hp
    rw [← hp]
    simp only [IRes.erase]
    exact this.symm
  | done x =>
    rw [h] at hp
    have hp : x = q s := hp
    rw [← hp]
    cases x with
    | err => exact hq
    | _ => rfl

theorem complete_ne (p : IParser α) (s : Str) : p.complete s ≠ .incomplete := by
  unfold IParser.complete
  cases h : p s <;> simp

theorem erase_altComplete {p p' : IParser α} {q q' : Parser α} {s : Str} (hp : (p s).erase = q s) (hq : (p' s).erase = q' s) :
    ((p.altComplete p') s).erase = (q <//> q') s :=
  erase_alt (by rw [erase_complete, hp]) (by rw [erase_complete, hq]) fun h => absurd h (complete_ne _ _)

theorem altComplete_ne (p p' : IParser α) (s : Str) : p.altComplete p' s ≠ .incomplete := by
  unfold IParser.altComplete IParser.alt
  split
  · exact complete_ne _ _
  · exact complete_ne _ _

theorem lift_of_erase {p : IParser α} {q : Parser α} (h : ∀ s, (p s).erase = q s) (hn : ∀ s, p s ≠ .incomplete) :
    p = IParser.lift q := by
  funext s
  have := h s
  cases hp : p s with
  | incomplete => exact absurd hp (hn s)
  | done x => rw [hp] at this; rw [IParser.lift, ← this]; rfl

theorem lift_bind (q : Parser α) (f : α → Parser β) : (IParser.lift q >>= fun v => IParser.lift (f v)) = IParser.lift (q >>= f) := by
  funext s
  rw [ibind_apply]
  unfold IParser.lift
  rw [bind_apply]
  cases q s <;> rfl

theorem lift_mapP (g : α → β) (q : Parser α) : IParser.mapP g (.lift q) = .lift (mapP g q) :=
  lift_bind q fun v => (Parser.pure (g v) : Parser β)

theorem lift_many0Aux (q : Parser α) (n : Nat) : IParser.many0Aux (.lift q) n = .lift (many0Aux q n) := by
  induction n with
  | zero => rfl
  | succ n ih =>
    funext s
    unfold IParser.many0Aux
    rw [ih]
    simp only [lift_mapP]
    simp only [IParser.lift]
    have key : many0Aux q (n + 1) s = match q s with
      | .ok r v => if r.length < s.length then (many0Aux q n r).map (v :: ·) else .ok s []
      | .err => .ok s []
      | .fail t => .fail t
      | .panic => .panic
      | .diverge => .diverge := rfl
    rw [key]
    cases q s with
    | ok r v =>
      dsimp only
      split <;> rfl
    | _ => rfl

theorem lift_many0 (q : Parser α) : IParser.many0 (.lift q) = .lift (many0 q) := by
  funext s
  unfold IParser.many0 many0
  rw [lift_many0Aux]; rfl

theorem lift_many1 (q : Parser α) : IParser.many1 (.lift q) = .lift (many1 q) := by
  unfold IParser.many1
  rw [lift_many0]
  simp only [lift_mapP]
  exact lift_bind q fun v => mapP (v :: ·) (many0 q)

end

theorem eolI_cases (s : Str) : (eolI s = .incomplete ∧ (s = [] ∨ s = ['\r'])) ∨ (eolI s = .done (eol s) ∧ s ≠ [] ∧ s ≠ ['\r']) := by
  unfold eolI
  split
  · simp
  · simp
  · rename_i h1 h2; exact .inr ⟨rfl, h1, h2⟩

theorem erase_eol (s : Str) : (eolI s).erase = eol s := by
  rcases eolI_cases s with ⟨h, rfl | rfl⟩ | ⟨h, -⟩
  · rfl
  · rfl
  · rw [h]; rfl

theorem erase_peek {α : Type} {p : IParser α} {q : Parser α} {s : Str} (h : (p s).erase = q s) : (p.peek s).erase = peek q s := by
  unfold IParser.peek peek
  cases hp : p s with
  | incomplete => rw [hp] at h; rw [← h]; rfl
  | done x =>
    rw [hp] at h
    have h : x = q s := h
    rw [← h]
    cases x <;> rfl

theorem erase_hashComment (s : Str) : (hashCommentI s).erase = hashComment s :=
  erase_bind rfl fun _ _ _ => erase_bind rfl fun _ _ _ => erase_bind (erase_eol _) fun _ _ _ => rfl

theorem erase_slashComment (s : Str) : (slashCommentI s).erase = slashComment s :=
  erase_bind rfl fun _ _ _ => erase_bind rfl fun _ _ _ => erase_bind (erase_eol _) fun _ _ _ => rfl

theorem lineComment_lift : lineCommentI = .lift lineComment :=
  lift_of_erase (fun s => erase_altComplete (erase_hashComment s) (erase_hashComment s)) (altComplete_ne _ _)

theorem ws_lift : wsI = .lift ws := by
  unfold wsI ws
  rw [← lift_many0]
  congr 1
  exact lift_of_erase (fun s => erase_altComplete (erase_hashComment s) (erase_altComplete (erase_slashComment s)
    (erase_altComplete rfl rfl))) (altComplete_ne _ _)

theorem newline_lift : newlineI = .lift newline := by
  unfold newlineI newline
  rw [← lift_many1]
  congr 1
  exact lift_of_erase (fun s => erase_altComplete (erase_hashComment s) (erase_altComplete (erase_slashComment s)
    (erase_altComplete (erase_bind rfl fun _ _ _ => erase_bind (erase_eol _) fun _ _ _ => rfl) (erase_eol s)))) (altComplete_ne _ _)

section
variable {U : CharClass}

theorem erase_heredocBegin (s : Str) : (heredocBeginI U s).erase = heredocBegin U s :=
  erase_bind rfl fun _ _ _ => erase_bind rfl fun _ _ _ => erase_bind rfl fun _ _ _ => erase_bind (erase_peek (erase_eol _)) fun _ _ _ => rfl

theorem erase_heredocEnd (h : HereDoc) (s : Str) : (heredocEndI h s).erase = heredocEnd h s :=
  erase_bind (erase_eol _) fun _ _ _ => erase_bind rfl fun _ _ _ => erase_bind rfl fun _ _ _ =>
    erase_bind (erase_peek (erase_eol _)) fun _ _ _ => rfl

theorem takeTillMatchI_eq {α : Type} {p : IParser α} {q : Parser α} (h : ∀ s, (p s).erase = q s) (s : Str) :
    takeTillMatchI p s = takeTillMatch q s := by
  induction s with
  | nil => rfl
  | cons c s ih =>
    rw [takeTillMatchI, takeTillMatch, ← h (c :: s), ih]
    cases p (c :: s) with
    | incomplete => rfl
    | done x => cases x <;> rfl

theorem heredocEnd_newline {h : HereDoc} {s r : Str} {n : Nat} (hk : heredocEnd h s = .ok r n) : '\n' ∈ s := by
  obtain ⟨t, v, h1, -⟩ := bind_eq_ok.1 hk
  obtain ⟨he, rfl⟩ := eol_eq_ok.1 h1
  cases he <;> simp

theorem takeTillMatch_no_newline {h : HereDoc} {s : Str} (hs : '\n' ∉ s) : takeTillMatch (heredocEnd h) s = .err := by
  refine (takeTillMatch_tame (Tame.heredocEnd h).safe).not_ok fun r v hk => ?_
  obtain ⟨c, n⟩ := v
  obtain ⟨⟨t, rfl, -, h1⟩, -⟩ := (takeTillMatch_iff (Tame.heredocEnd h).safe).1 hk
  exact hs (List.mem_append_right _ (heredocEnd_newline h1))

/-- `Incomplete` at the closing line means that the text ends there. -/
theorem heredocEndI_incomplete {h : HereDoc} (hid : '\n' ∉ h.identifier) {s : Str} (hi : heredocEndI h s = .incomplete) :
    ∀ r v, eol s = .ok r v → '\n' ∉ r := by
  intro r v hv
  rcases ibind_incomplete_iff.1 hi with h1 | ⟨r', v', h1, hi⟩
  · rcases eolI_cases s with ⟨-, rfl | rfl⟩ | ⟨h2, -⟩
    · cases hv
    · cases hv
    · rw [h2] at h1; cases h1
  · rcases eolI_cases s with ⟨h2, -⟩ | ⟨h2, -⟩
    · rw [h2] at h1; cases h1
    rw [h2, hv] at h1
    cases h1
    rcases ibind_incomplete_iff.1 hi with h1 | ⟨r', v', h1, hi⟩
    · cases h1
    cases h1
    rcases ibind_incomplete_iff.1 hi with h1 | ⟨t, w, h1, hi⟩
    · cases h1
    · have ht : tag h.identifier (r.dropWhile isBlank) = .ok t w := by
        simp only [IParser.lift] at h1
        injection h1
      obtain ⟨h3, rfl⟩ := tag_eq_ok.1 ht
      have hi : eolI.peek t = .incomplete := by
        rcases ibind_incomplete_iff.1 hi with h | ⟨_, _, _, h⟩
        · exact h
        · cases h
      have hb : '\n' ∉ r.takeWhile isBlank := fun hm => by
        have := List.all_takeWhile (p := isBlank) (l := r)
        have := List.all_eq_true.1 this _ hm
        revert this; decide
      have hp : t = [] ∨ t = ['\r'] := by
        unfold IParser.peek at hi
        rcases eolI_cases t with ⟨-, h⟩ | ⟨h, -⟩
        · exact h
        · rw [h] at hi
          exfalso
          cases he : eol t <;> rw [he] at hi <;> cases hi
      rw [← List.takeWhile_append_dropWhile (p := isBlank) (l := r), h3]
      intro hm
      rcases List.mem_append.1 hm with hm | hm
      · exact hb hm
      · rcases List.mem_append.1 hm with hm | hm
        · exact hid hm
        · rcases hp with rfl | rfl <;> revert hm <;> decide

theorem erase_heredocContent {h : HereDoc} (hid : '\n' ∉ h.identifier) (s : Str) :
    (heredocContentI h s).erase = heredocContent h s := by
  refine erase_alt (erase_mapP _ (erase_heredocEnd h s)) ?_ ?_
  · exact erase_bind (erase_eol _) fun v r _ => takeTillMatchI_eq (erase_heredocEnd h) r
  · intro hi
    have hi : heredocEndI h s = .incomplete := by
      cases hh : heredocEndI h s with
      | incomplete => rfl
      | done x =>
        exfalso
        have : IParser.mapP (fun _ => (([] : Str), 0)) (heredocEndI h) s = (heredocEndI h >>= fun _ => IParser.lift (Parser.pure (([] : Str), 0))) s := rfl
        rw [this, ibind_apply, hh] at hi
        cases x <;> cases hi
    rw [bind_apply]
    cases he : eol s with
    | ok r v => exact takeTillMatch_no_newline (heredocEndI_incomplete hid hi r v he)
    | err => rfl
    | _ =>
      rcases (Tame.eol s) with ⟨_, _, h⟩ | h <;> rw [h] at he <;> cases he

theorem markerChar_not_nl {c : Char} (h : MarkerChar U c) : c ≠ '\n' := by
  rintro rfl
  rcases h with h | h
  · rw [U.alnum_ascii _ (by decide)] at h; revert h; decide
  · revert h; decide

theorem erase_heredocString (s : Str) : (heredocStringI U s).erase = heredocString U s := by
  refine erase_bind (erase_heredocBegin s) fun h r hk => ?_
  obtain ⟨-, -, h2, -⟩ := heredocBegin_iff.1 hk
  exact erase_bind (erase_heredocContent (fun hm => markerChar_not_nl (h2 _ hm) rfl) r) fun _ _ _ => rfl

theorem erase_string (s : Str) : (stringI U s).erase = string U s :=
  erase_alt rfl (erase_heredocString s) fun h => by cases h

theorem expr_lift (e : Parser Expr) : exprStepI U e = .lift (exprStep U e) :=
  lift_of_erase (fun s => erase_altComplete rfl (erase_altComplete rfl (erase_altComplete rfl
    (erase_altComplete (erase_mapP _ (erase_string s)) (erase_altComplete rfl (erase_altComplete rfl rfl))))))
    (altComplete_ne _ _)

theorem value_lift (P : F64Parse) (v : Parser Value) (m : Parser MapValues) :
    valueStepI U P v m = .lift (valueStep U P v m) :=
  lift_of_erase (fun s => erase_altComplete rfl (erase_altComplete rfl (erase_altComplete rfl
    (erase_altComplete (erase_mapP _ (erase_string s)) (erase_altComplete rfl rfl)))))
    (altComplete_ne _ _)

/-! ## when more input is asked for -/

theorem eolI_incomplete {s : Str} : eolI s = .incomplete ↔ CutEnd s := by
  rcases eolI_cases s with ⟨h, h'⟩ | ⟨h, h1, h2⟩
  · exact ⟨fun _ => h', fun _ => h⟩
  · rw [h]
    constructor
    · intro h; cases h
    · rintro (h | h)
      · exact absurd h h1
      · exact absurd h h2

theorem peekEolI_incomplete {s : Str} : eolI.peek s = .incomplete ↔ CutEnd s := by
  rw [← eolI_incomplete]
  unfold IParser.peek
  cases h : eolI s with
  | incomplete => simp
  | done x => cases x <;> simp

theorem lift_bind_incomplete {α β : Type} {p : Parser α} {f : α → IParser β} {s : Str} :
    (IParser.lift p >>= f) s = .incomplete ↔ ∃ r v, p s = .ok r v ∧ f v r = .incomplete := by
  rw [ibind_incomplete_iff]
  constructor
  · rintro (h | ⟨r, v, h, h'⟩)
    · cases h
    · exact ⟨r, v, by injection h, h'⟩
  · rintro ⟨r, v, h, h'⟩
    exact .inr ⟨r, v, by rw [IParser.lift, h], h'⟩

theorem bind_pure_incomplete {α β : Type} {p : IParser α} {g : α → β} {s : Str} :
    (p >>= fun v => (pure (g v) : IParser β)) s = .incomplete ↔ p s = .incomplete := by
  rw [ibind_incomplete_iff]
  constructor
  · rintro (h | ⟨r, v, -, h'⟩)
    · exact h
    · cases h'
  · exact .inl

theorem cutEnd_notEol {s : Str} (h : CutEnd s) : ∀ c t, s = c :: t → notEol c = false := by
  rintro c t rfl
  rcases h with h | h
  · cases h
  · injection h with h; rw [h]; decide

theorem cutEnd_not_marker {s : Str} (h : CutEnd s) : ∀ c t, s = c :: t → heredocChar U c = false := by
  rintro c t rfl
  rcases h with h | h
  · cases h
  · injection h with h1 h2; rw [h1]
    cases hc : heredocChar U '\r' with
    | false => rfl
    | true => exact absurd (heredocChar_iff.1 hc) (markerChar_not (by decide) (by decide))

theorem commentI_incomplete {s : Str} :
    ((IParser.lift (takeWhile notEol) >>= fun v => eolI >>= fun _ => pure v : IParser Str) s) = .incomplete ↔
      ∃ v e, s = v ++ e ∧ (∀ c ∈ v, c ≠ '\r' ∧ c ≠ '\n') ∧ CutEnd e := by
  rw [lift_bind_incomplete]
  constructor
  · rintro ⟨r, v, h1, h2⟩
    cases h1
    exact ⟨_, _, List.takeWhile_append_dropWhile.symm, fun c hc => notEol_iff.1 (mem_takeWhile hc),
      eolI_incomplete.1 (bind_pure_incomplete.1 h2)⟩
  · rintro ⟨v, e, rfl, h1, h2⟩
    have := takeWhile_append_of (f := notEol) (fun c hc => notEol_iff.2 (h1 c hc)) (cutEnd_notEol h2)
    refine ⟨e, v, ?_, bind_pure_incomplete.2 (eolI_incomplete.2 h2)⟩
    rw [takeWhile, this.1, this.2]

theorem hashCommentI_incomplete {s : Str} :
    hashCommentI s = .incomplete ↔ ∃ v e, s = '#' :: v ++ e ∧ (∀ c ∈ v, c ≠ '\r' ∧ c ≠ '\n') ∧ CutEnd e := by
  unfold hashCommentI
  rw [lift_bind_incomplete]
  simp only [commentI_incomplete, tag_eq_ok]
  constructor
  · rintro ⟨_, _, ⟨rfl, -⟩, v, e, rfl, h⟩; exact ⟨v, e, rfl, h⟩
  · rintro ⟨v, e, rfl, h⟩; exact ⟨_, _, ⟨rfl, rfl⟩, v, e, rfl, h⟩

theorem slashCommentI_incomplete {s : Str} :
    slashCommentI s = .incomplete ↔ ∃ v e, s = '/' :: '/' :: v ++ e ∧ (∀ c ∈ v, c ≠ '\r' ∧ c ≠ '\n') ∧ CutEnd e := by
  unfold slashCommentI
  rw [lift_bind_incomplete]
  simp only [commentI_incomplete, tag_eq_ok]
  constructor
  · rintro ⟨_, _, ⟨rfl, -⟩, v, e, rfl, h⟩; exact ⟨v, e, rfl, h⟩
  · rintro ⟨v, e, rfl, h⟩; exact ⟨_, _, ⟨rfl, rfl⟩, v, e, rfl, h⟩

theorem heredocBeginI_incomplete {s : Str} : heredocBeginI U s = .incomplete ↔
    ∃ (ind : Bool) (m e : Str), s = '<' :: '<' :: (if ind then ['-'] else []) ++ m ++ e ∧ m ≠ [] ∧
      (∀ c ∈ m, MarkerChar U c) ∧ CutEnd e := by
  unfold heredocBeginI
  simp only [lift_bind_incomplete, bind_pure_incomplete, peekEolI_incomplete, tag_eq_ok, opt_eq_ok, takeWhile1_iff]
  constructor
  · rintro ⟨_, _, ⟨rfl, -⟩, s2, o, ho, e, m, ⟨rfl, h1, h2, -⟩, h3⟩
    rcases ho with ⟨w, ⟨rfl, rfl⟩, rfl⟩ | ⟨-, rfl, rfl⟩
    · exact ⟨true, m, e, by simp, h1, fun c hc => heredocChar_iff.1 (h2 c hc), h3⟩
    · exact ⟨false, m, e, by simp, h1, fun c hc => heredocChar_iff.1 (h2 c hc), h3⟩
  · rintro ⟨ind, m, e, rfl, h1, h2, h3⟩
    refine ⟨(if ind then ['-'] else []) ++ m ++ e, _, ⟨by simp, rfl⟩, m ++ e, if ind then some ['-'] else none, ?_, e, m,
      ⟨rfl, h1, fun c hc => heredocChar_iff.2 (h2 c hc), cutEnd_not_marker h3⟩, h3⟩
    cases ind with
    | true => left; exact ⟨_, ⟨by simp, rfl⟩, rfl⟩
    | false =>
      right
      refine ⟨?_, by simp, rfl⟩
      cases m with
      | nil => exact absurd rfl h1
      | cons c m =>
        apply tag_cons_ne
        rintro rfl
        exact absurd (h2 _ (List.mem_cons_self ..)) (markerChar_not (by decide) (by decide))

theorem heredocEndI_incomplete_iff {h : HereDoc} (hm : h.identifier ≠ []) (hm' : ∀ c ∈ h.identifier, isBlank c = false) {s : Str} :
    heredocEndI h s = .incomplete ↔ CutEnd s ∨ CutTerminator h.identifier s := by
  unfold heredocEndI
  rw [ibind_incomplete_iff, eolI_incomplete]
  simp only [lift_bind_incomplete, bind_pure_incomplete, peekEolI_incomplete, tag_eq_ok, takeWhile]
  refine or_congr Iff.rfl ?_
  constructor
  · rintro ⟨r, v, h1, _, b, hb, e, _, ⟨h2, -⟩, h3⟩
    injection hb with h7 h8
    subst h8
    have he : eol s = .ok r v := by
      rcases eolI_cases s with ⟨h, -⟩ | ⟨h, -⟩ <;> rw [h] at h1
      · cases h1
      · injection h1
    obtain ⟨he', rfl⟩ := eol_eq_ok.1 he
    refine ⟨v, r.takeWhile isBlank, e, he', ?_, fun c hc => isBlank_iff.1 (mem_takeWhile hc), h3⟩
    rw [List.append_assoc, List.append_assoc, ← h2, ← h7, List.takeWhile_append_dropWhile]
  · rintro ⟨v, b, e, he, rfl, hb, h3⟩
    have key : ∀ c t, h.identifier ++ e = c :: t → isBlank c = false := by
      intro c t h'
      cases hi : h.identifier with
      | nil => exact absurd hi hm
      | cons d m => rw [hi] at h'; simp at h'; rw [← h'.1]; exact hm' d (by rw [hi]; exact List.mem_cons_self ..)
    have h1 := takeWhile_append_of (f := isBlank) (fun c hc => isBlank_iff.2 (hb c hc)) key
    refine ⟨b ++ (h.identifier ++ e), v, ?_, h.identifier ++ e, b, ?_, e, _, ⟨rfl, rfl⟩, h3⟩
    · have he' : eol (v ++ b ++ h.identifier ++ e) = .ok (b ++ (h.identifier ++ e)) v := eol_eq_ok.2 ⟨he, by simp⟩
      rcases eolI_cases (v ++ b ++ h.identifier ++ e) with ⟨-, h | h⟩ | ⟨h, -⟩
      · rw [h] at he'; cases he'
      · rw [h] at he'; cases he'
      · rw [h, he']
    · rw [h1.1, h1.2]

theorem heredocStringI_incomplete {s : Str} : heredocStringI U s = .incomplete ↔
    ∃ (ind : Bool) (m e : Str), s = '<' :: '<' :: (if ind then ['-'] else []) ++ m ++ e ∧ m ≠ [] ∧
      (∀ c ∈ m, MarkerChar U c) ∧ (CutEnd e ∨ CutTerminator m e) := by
  unfold heredocStringI
  rw [ibind_incomplete_iff, heredocBeginI_incomplete]
  have fin : ∀ (h : HereDoc) (r : Str), (heredocContentI h >>= fun c => IParser.lift (heredocFinish c)) r = .incomplete ↔
      heredocContentI h r = .incomplete := by
    intro h r
    rw [ibind_incomplete_iff]
    constructor
    · rintro (h | ⟨_, _, -, h⟩)
      · exact h
      · cases h
    · exact .inl
  have content : ∀ (h : HereDoc) (r : Str), StartsEol r → (heredocContentI h r = .incomplete ↔ heredocEndI h r = .incomplete) := by
    intro h r hr
    have hmap : IParser.mapP (fun _ => (([] : Str), 0)) (heredocEndI h) r = .incomplete ↔ heredocEndI h r = .incomplete :=
      bind_pure_incomplete (p := heredocEndI h) (g := fun _ => (([] : Str), 0))
    rw [← hmap]
    unfold heredocContentI IParser.alt
    constructor
    · split
      · intro h'
        rcases ibind_incomplete_iff.1 h' with h' | ⟨_, _, _, h'⟩
        · exfalso
          obtain ⟨e, t, he, rfl⟩ := hr
          rcases eolI_incomplete.1 h' with h' | h' <;> cases he <;> cases h'
        · cases h'
      · exact id
    · intro h; rw [h]
  constructor
  · rintro (⟨ind, m, e, rfl, h1, h2, h3⟩ | ⟨r, h, hb, hc⟩)
    · exact ⟨ind, m, e, rfl, h1, h2, .inl h3⟩
    · have hb' : heredocBegin U s = .ok r h := by
        have := erase_heredocBegin (U := U) s
        rw [hb] at this
        exact this.symm
      obtain ⟨rfl, h1, h2, h3⟩ := heredocBegin_iff.1 hb'
      rw [fin, content h r h3, heredocEndI_incomplete_iff h1 fun c hc => markerChar_not_blank (h2 c hc)] at hc
      exact ⟨h.indented, h.identifier, r, rfl, h1, h2, hc⟩
  · rintro ⟨ind, m, e, rfl, h1, h2, h3 | h3⟩
    · exact .inl ⟨ind, m, e, rfl, h1, h2, h3⟩
    · right
      have hs : StartsEol e := by
        obtain ⟨v, b, e', he, rfl, -⟩ := h3
        exact ⟨v, b ++ m ++ e', he, by simp⟩
      have hb' : heredocBegin U ('<' :: '<' :: (if ind then ['-'] else []) ++ m ++ e) = .ok e ⟨m, ind⟩ :=
        heredocBegin_iff.2 ⟨rfl, h1, h2, hs⟩
      refine ⟨e, ⟨m, ind⟩, ?_, ?_⟩
      · have := erase_heredocBegin (U := U) ('<' :: '<' :: (if ind then ['-'] else []) ++ m ++ e)
        rw [hb'] at this
        cases hx : heredocBeginI U ('<' :: '<' :: (if ind then ['-'] else []) ++ m ++ e) with
        | incomplete => rw [hx] at this; cases this
        | done x => rw [hx] at this; exact congrArg IRes.done this
      · rw [fin, content _ e hs]
        exact (heredocEndI_incomplete_iff (h := ⟨m, ind⟩) h1 fun c hc => markerChar_not_blank (h2 c hc)).2 (.inr h3)

theorem stringI_incomplete {s : Str} : stringI U s = .incomplete ↔ heredocStringI U s = .incomplete := by
  constructor
  · unfold stringI IParser.alt
    split
    · exact id
    · rename_i h; intro h'; cases h'
  · intro h
    obtain ⟨ind, m, e, rfl, -⟩ := heredocStringI_incomplete.1 h
    have : mapP CowStr.ownedS quotedString ('<' :: '<' :: (if ind then ['-'] else []) ++ m ++ e) = .err := by
      unfold mapP
      rw [show quotedString ('<' :: '<' :: (if ind then ['-'] else []) ++ m ++ e) = .err from rfl]
      rfl
    unfold stringI IParser.alt IParser.lift
    rw [this]
    exact h

theorem erase_cases {α : Type} {x : IRes α} {y : PRes α} (h : x.erase = y) : x = .incomplete ∧ y = .err ∨ x = .done y := by
  cases x with
  | incomplete => exact .inl ⟨rfl, h.symm⟩
  | done z => exact .inr (congrArg IRes.done h)

theorem cutEnd_final {t v e : Str} (h : t ++ ['\n'] = v ++ e) (hv : ∀ c ∈ v, c ≠ '\n') : ¬ CutEnd e := by
  rintro (rfl | rfl)
  · rw [List.append_nil] at h
    exact hv '\n' (h ▸ by simp) rfl
  · have := congrArg List.getLast? h
    simp at this

end
end Verif
