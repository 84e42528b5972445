import Verif.Proofs.Calls
import Verif.Proofs.OldCalls
import Verif.Spec.Depth
import Verif.Proofs.Extend
/-! # How deep the parsers recurse -/
set_option autoImplicit false

namespace Verif
open PRes Spec

variable {α β : Type}

theorem openers_suffix {r s : Str} (h : r <:+ s) : openers r ≤ openers s := by
  obtain ⟨t, rfl⟩ := h
  unfold openers
  rw [List.countP_append]; omega

theorem openers_cons {c : Char} {s : Str} (h : c = '[' ∨ c = '{' ∨ c = '(') : openers (c :: s) = openers s + 1 := by
  unfold openers
  rcases h with rfl | rfl | rfl <;> simp

/-- `p` and `p'` agree on texts with fewer than `m` opening brackets, and what `p` leaves is a suffix -/
structure Agr (m : Nat) (p p' : Parser α) : Prop where
  eq : ∀ s, openers s < m → p s = p' s
  sfx : ∀ s r v, p s = .ok r v → r <:+ s

namespace Agr
variable {m : Nat}

theorem refl {p : Parser α} (h : ∀ s r v, p s = .ok r v → r <:+ s) : Agr m p p := ⟨fun _ _ => rfl, h⟩

theorem bind {p p' : Parser α} {f f' : α → Parser β} (hp : Agr m p p') (hf : ∀ v, Agr m (f v) (f' v)) :
    Agr m (p >>= f) (p' >>= f') := by
  refine ⟨fun s hs => ?_, fun s r v h => ?_⟩
  · rw [bind_apply, bind_apply, ← hp.eq s hs]
    cases h : p s with
    | ok r v => exact (hf v).eq r (Nat.lt_of_le_of_lt (openers_suffix (hp.sfx s r v h)) hs)
    | _ => rfl
  · obtain ⟨r', v', h1, h2⟩ := bind_eq_ok.1 h
    exact ((hf v').sfx _ _ _ h2).trans (hp.sfx _ _ _ h1)

theorem pure (v : α) : Agr m (Pure.pure v : Parser α) (Pure.pure v) :=
  .refl fun s r w h => by cases h; exact List.suffix_refl _

theorem orElse {p p' q q' : Parser α} (hp : Agr m p p') (hq : Agr m q q') : Agr m (p <//> q) (p' <//> q') := by
  refine ⟨fun s hs => ?_, fun s r v h => ?_⟩
  · unfold Verif.orElse
    rw [← hp.eq s hs, ← hq.eq s hs]
  · rcases orElse_eq_ok.1 h with h | ⟨-, h⟩
    · exact hp.sfx _ _ _ h
    · exact hq.sfx _ _ _ h

theorem mapP {p p' : Parser α} {g : α → β} (hp : Agr m p p') : Agr m (mapP g p) (Verif.mapP g p') := by
  refine ⟨fun s hs => ?_, fun s r v h => ?_⟩
  · rw [mapP_apply, mapP_apply, hp.eq s hs]
  · obtain ⟨v', h, -⟩ := mapP_eq_ok.1 h
    exact hp.sfx _ _ _ h

theorem opt {p p' : Parser α} (hp : Agr m p p') : Agr m (opt p) (Verif.opt p') := by
  refine ⟨fun s hs => ?_, fun s r v h => ?_⟩
  · unfold Verif.opt; rw [hp.eq s hs]
  · rcases opt_eq_ok.1 h with ⟨v', h, -⟩ | ⟨-, rfl, -⟩
    · exact hp.sfx _ _ _ h
    · exact List.suffix_refl _

theorem recognize {p p' : Parser α} (hp : Agr m p p') : Agr m (recognize p) (Verif.recognize p') := by
  refine ⟨fun s hs => ?_, fun s r v h => ?_⟩
  · unfold Verif.recognize; rw [hp.eq s hs]
  · obtain ⟨r', v', h1, h2⟩ := bind_eq_ok.1 h
    cases h2; exact hp.sfx _ _ _ h1

theorem many0Aux {p p' : Parser α} (hp : Agr m p p') : ∀ n, Agr m (many0Aux p n) (Verif.many0Aux p' n)
  | 0 => ⟨fun _ _ => rfl, fun s r v h => by cases h⟩
  | n + 1 => by
    have ih := many0Aux hp n
    refine ⟨fun s hs => ?_, fun s r v h => ?_⟩
    · unfold Verif.many0Aux
      rw [← hp.eq s hs]
      cases h : p s with
      | ok r v => simp only; rw [show Verif.many0Aux p n r = _ from ih.eq r (Nat.lt_of_le_of_lt (openers_suffix (hp.sfx s r v h)) hs)]
      | _ => rfl
    · unfold Verif.many0Aux at h
      cases h1 : p s with
      | ok r' v' =>
        rw [h1] at h
        simp only at h
        split at h
        · obtain ⟨v'', h2, -⟩ := map_eq_ok.1 h
          exact (ih.sfx _ _ _ h2).trans (hp.sfx _ _ _ h1)
        · cases h; exact List.suffix_refl _
      | err => rw [h1] at h; cases h; exact List.suffix_refl _
      | _ => rw [h1] at h; cases h

theorem many0 {p p' : Parser α} (hp : Agr m p p') : Agr m (many0 p) (Verif.many0 p') :=
  ⟨fun s hs => (many0Aux hp _).eq s hs, fun s r v h => (many0Aux hp _).sfx s r v h⟩

theorem sepTailAux {sep : Parser β} (hsep : ∀ s r v, sep s = .ok r v → r <:+ s) {p p' : Parser α} (hp : Agr m p p') :
    ∀ n, Agr m (sepTailAux sep p n) (Verif.sepTailAux sep p' n)
  | 0 => ⟨fun _ _ => rfl, fun s r v h => by cases h⟩
  | n + 1 => by
    have ih := sepTailAux hsep hp n
    refine ⟨fun s hs => ?_, fun s r v h => ?_⟩
    · unfold Verif.sepTailAux
      cases h : sep s with
      | ok r v =>
        have hr := Nat.lt_of_le_of_lt (openers_suffix (hsep s r v h)) hs
        simp only
        rw [← hp.eq r hr]
        cases h' : p r with
        | ok r' v' => simp only; rw [show Verif.sepTailAux sep p n r' = _ from ih.eq r' (Nat.lt_of_le_of_lt (openers_suffix (hp.sfx r r' v' h')) hr)]
        | _ => rfl
      | _ => rfl
    · unfold Verif.sepTailAux at h
      cases h1 : sep s with
      | ok r' v' =>
        rw [h1] at h
        simp only at h
        cases h2 : p r' with
        | ok r'' v'' =>
          rw [h2] at h
          simp only at h
          split at h
          · obtain ⟨_, h3, -⟩ := map_eq_ok.1 h
            exact ((ih.sfx _ _ _ h3).trans (hp.sfx _ _ _ h2)).trans (hsep _ _ _ h1)
          · cases h
        | err => rw [h2] at h; cases h; exact List.suffix_refl _
        | _ => rw [h2] at h; cases h
      | err => rw [h1] at h; cases h; exact List.suffix_refl _
      | _ => rw [h1] at h; cases h

theorem separatedList {sep : Parser β} (hsep : ∀ s r v, sep s = .ok r v → r <:+ s) {p p' : Parser α} (hp : Agr m p p') :
    Agr m (separatedList sep p) (Verif.separatedList sep p') := by
  refine ⟨fun s hs => ?_, fun s r v h => ?_⟩
  · unfold Verif.separatedList
    rw [← hp.eq s hs]
    cases h : p s with
    | ok r v => simp only; rw [(sepTailAux hsep hp _).eq r (Nat.lt_of_le_of_lt (openers_suffix (hp.sfx s r v h)) hs)]
    | _ => rfl
  · unfold Verif.separatedList at h
    cases h1 : p s with
    | ok r' v' =>
      rw [h1] at h
      simp only at h
      split at h
      · obtain ⟨_, h3, -⟩ := map_eq_ok.1 h
        exact ((sepTailAux hsep hp _).sfx _ _ _ h3).trans (hp.sfx _ _ _ h1)
      · cases h
    | err => rw [h1] at h; cases h; exact List.suffix_refl _
    | _ => rw [h1] at h; cases h

/-- an opening bracket is consumed, so what follows has to agree on one bracket less -/
theorem «open» {c : Char} (hc : c = '[' ∨ c = '{' ∨ c = '(') {f f' : Str → Parser β} (hf : ∀ v, Agr m (f v) (f' v)) :
    Agr (m + 1) (tag [c] >>= f) (tag [c] >>= f') := by
  refine ⟨fun s hs => ?_, fun s r v h => ?_⟩
  · rw [bind_apply, bind_apply]
    cases h : tag [c] s with
    | ok r v =>
      obtain ⟨rfl, rfl⟩ := tag_eq_ok.1 h
      refine (hf _).eq r ?_
      rw [List.cons_append, List.nil_append, openers_cons hc] at hs
      omega
    | _ => rfl
  · obtain ⟨r', v', h1, h2⟩ := bind_eq_ok.1 h
    obtain ⟨rfl, -⟩ := tag_eq_ok.1 h1
    exact ((hf _).sfx _ _ _ h2).trans (List.suffix_append _ _)

theorem tag (t : Str) : Agr m (tag t) (Verif.tag t) := .refl fun s r v h => by
  obtain ⟨rfl, -⟩ := tag_eq_ok.1 h; exact List.suffix_append _ _

theorem ws : Agr m Verif.ws Verif.ws := .refl fun s r v h => (ws_iff.1 ⟨v, h⟩).suffix
theorem inlineWs : Agr m Verif.inlineWs Verif.inlineWs := .refl fun s r v h => (inlineWs_iff.1 ⟨v, h⟩).suffix

theorem wsAround {p p' : Parser α} (hp : Agr m p p') : Agr m (wsAround p) (Verif.wsAround p') :=
  .bind ws fun _ => .bind hp fun _ => .bind ws fun _ => .pure _

theorem inlineWsAround {p p' : Parser α} (hp : Agr m p p') : Agr m (inlineWsAround p) (Verif.inlineWsAround p') :=
  .bind inlineWs fun _ => .bind hp fun _ => .bind inlineWs fun _ => .pure _

/-- as `open`, with layout around the bracket -/
theorem openWs {c : Char} (hc : c = '[' ∨ c = '{' ∨ c = '(') {f f' : Str → Parser β} (hf : ∀ v, Agr m (f v) (f' v)) :
    Agr (m + 1) (Verif.wsAround (Verif.tag [c]) >>= f) (Verif.wsAround (Verif.tag [c]) >>= f') := by
  refine ⟨fun s hs => ?_, fun s r v h => ?_⟩
  · rw [bind_apply, bind_apply]
    cases h : Verif.wsAround (Verif.tag [c]) s with
    | ok r v =>
      obtain ⟨t, u, h1, h2, h3⟩ := wsAround_eq_ok.1 h
      obtain ⟨rfl, rfl⟩ := tag_eq_ok.1 h2
      refine (hf _).eq r ?_
      have e1 := openers_suffix h1.suffix
      have e2 := openers_suffix h3.suffix
      rw [List.cons_append, List.nil_append, openers_cons hc] at e1
      omega
    | _ => rfl
  · obtain ⟨r', v', h1, h2⟩ := bind_eq_ok.1 h
    exact ((hf _).sfx _ _ _ h2).trans ((wsAround (m := 0) (tag [c])).sfx _ _ _ h1)

end Agr

variable {U : CharClass} {P : F64Parse} {m : Nat}

theorem Agr.identifier : Agr m (identifier U) (Verif.identifier U) :=
  .refl fun s r v h => (ident_consumes (identifier_iff.1 h)).suffix
theorem Agr.stringLiteral : Agr m stringLiteral Verif.stringLiteral :=
  .refl fun s r v h => (quoted_consumes (stringLiteral_iff.1 h)).suffix
theorem Agr.newline : Agr m newline Verif.newline := .refl fun s r v h => (newlines_consumes (newline_sound h)).suffix
theorem Agr.eof : Agr m eof Verif.eof := .refl fun s r v h => by rw [(eof_eq_ok.1 h).2]; exact List.nil_suffix
theorem Agr.tupleSep : Agr m tupleSep Verif.tupleSep := .bind .ws fun _ => .tag _
theorem Agr.tupleEnd : Agr m tupleEnd Verif.tupleEnd :=
  .bind .ws fun _ => .bind (.wsAround (.opt (.tag _))) fun _ => .bind (.tag _) fun _ => .pure _

/-! ## expressions -/

theorem Agr.exprStep {e e' : Parser Expr} (he : Agr m e e') : Agr (m + 1) (exprStep U e) (Verif.exprStep U e') := by
  have hk : Agr m (objectElementIdentifier U e) (objectElementIdentifier U e') :=
    .orElse (.mapP .identifier) (.mapP (.recognize he))
  have hel : Agr m (objectElement U e) (objectElement U e') :=
    .bind .inlineWs fun _ => .bind hk fun _ => .bind .inlineWs fun _ => .bind (.tag _) fun _ => .bind .inlineWs fun _ =>
      .bind he fun _ => .bind .inlineWs fun _ => .pure _
  have hit : Agr m (objectItem U e) (objectItem U e') :=
    .bind .ws fun _ => .bind hel fun _ =>
      .bind (.refl fun s r v h => objectSep_suffix (objectSeparator_sound h)) fun _ => .pure _
  have hob : Agr m (objectBody U e) (objectBody U e') := .bind (.many0 hit) fun _ => .bind .ws fun _ => .pure _
  refine .orElse (.mapP (.mapP (.tag _))) (.orElse (.mapP (.refl fun s r v h => (numberTok_consumes (number_iff.1 h)).suffix))
    (.orElse (.mapP (.orElse (.mapP (.tag _)) (.mapP (.tag _))))
    (.orElse (.mapP (.refl fun s r v h => (stringTok_consumes (string_iff.1 h)).suffix)) (.orElse (.mapP ?_) (.orElse (.mapP ?_) ?_)))))
  · exact .open (.inl rfl) fun _ => .bind (.separatedList (Agr.tupleSep (m := m)).sfx (.bind .ws fun _ => he)) fun _ =>
      .bind .tupleEnd fun _ => .pure _
  · exact .openWs (.inr (.inl rfl)) fun _ => .bind (.wsAround hob) fun _ => .bind (.tag _) fun _ => .pure _
  · exact .openWs (.inr (.inr rfl)) fun _ => .bind (.wsAround he) fun _ => .bind (.tag _) fun _ => .pure _

theorem exprN_agr : ∀ n k, Agr n (exprN U n) (exprN U (n + k))
  | 0, k => ⟨fun s h => (by omega), fun s r v h => (by cases h)⟩
  | n + 1, k => by
    rw [show n + 1 + k = n + k + 1 by omega]
    exact (exprN_agr n k).exprStep

theorem openers_le (s : Str) : openers s ≤ s.length := List.countP_le_length

theorem exprN_depth {n : Nat} {s : Str} (h : openers s < n) : exprN U n s = expression U s := by
  have h1 : exprN U (s.length + 1) s = exprN U (s.length + 1 + n) s :=
    (exprN_agr (s.length + 1) n).eq s (by have := openers_le s; omega)
  have h2 : exprN U n s = exprN U (n + (s.length + 1)) s := (exprN_agr n (s.length + 1)).eq s h
  rw [h2, Nat.add_comm]; exact h1.symm

theorem expression_agr : Agr m (expression U) (expression U) :=
  .refl fun s r v h => (isExpr_consumes (exprN_sound _ _ _ _ h)).suffix

/-! ## bodies -/

theorem Agr.bodyStep {b b' : Parser Body} (hb : Agr m b b') : Agr (m + 1) (bodyStep U b) (Verif.bodyStep U b') := by
  have ha : Agr (m + 1) (attributeP U) (attributeP U) :=
    .bind .inlineWs fun _ => .bind .identifier fun _ => .bind .inlineWs fun _ => .bind (.tag _) fun _ =>
      .bind .inlineWs fun _ => .bind expression_agr fun _ => .bind .inlineWs fun _ => .pure _
  have hl : Agr (m + 1) (blockLabels U) (blockLabels U) :=
    .many0 (.inlineWsAround (.orElse (.mapP .identifier) (.mapP .stringLiteral)))
  have ho : Agr (m + 1) (oneLineBlock U) (oneLineBlock U) :=
    .bind .inlineWs fun _ => .bind .identifier fun _ => .bind .inlineWs fun _ => .bind hl fun _ => .bind .inlineWs fun _ =>
      .bind (.tag _) fun _ => .bind .inlineWs fun _ => .bind (.opt ha) fun _ => .bind .inlineWs fun _ =>
      .bind (.tag _) fun _ => .bind .inlineWs fun _ => .pure _
  have hbl : Agr (m + 1) (block U b) (block U b') :=
    .bind .inlineWs fun _ => .bind .identifier fun _ => .bind .inlineWs fun _ => .bind hl fun _ => .bind .inlineWs fun _ =>
      .open (.inr (.inl rfl)) fun _ => .bind .inlineWs fun _ => .bind .newline fun _ => .bind .inlineWs fun _ =>
      .bind hb fun _ => .bind .inlineWs fun _ => .bind (.tag _) fun _ => .bind .inlineWs fun _ => .pure _
  exact .bind (.many0 (.bind .ws fun _ => .bind (.orElse (.mapP ha) (.orElse ho hbl)) fun _ =>
    .bind (.orElse (.mapP .newline) .eof) fun _ => .pure _)) fun _ => .bind .ws fun _ => .pure _

theorem bodyN_agr : ∀ n k, Agr n (bodyN U n) (bodyN U (n + k))
  | 0, k => ⟨fun s h => (by omega), fun s r v h => (by cases h)⟩
  | n + 1, k => by
    rw [show n + 1 + k = n + k + 1 by omega]
    exact (bodyN_agr n k).bodyStep

theorem bodyN_depth {n : Nat} {s : Str} (h : openers s < n) : bodyN U n s = body U s := by
  have h1 : bodyN U (s.length + 1) s = bodyN U (s.length + 1 + n) s :=
    (bodyN_agr (s.length + 1) n).eq s (by have := openers_le s; omega)
  have h2 : bodyN U n s = bodyN U (n + (s.length + 1)) s := (bodyN_agr n (s.length + 1)).eq s h
  rw [h2, Nat.add_comm]; exact h1.symm

/-! ## legacy values -/

theorem Agr.mapExpression {x x' : Parser MapValues} (h : Agr m x x') :
    Agr (m + 1) (mapExpression x) (Verif.mapExpression x') :=
  .openWs (.inr (.inl rfl)) fun _ => .bind (.wsAround h) fun _ => .bind (.tag _) fun _ => .pure _

theorem Agr.valueStep {v v' : Parser Value} {x x' : Parser MapValues} (hv : Agr m v v') (hx : Agr m x x') :
    Agr (m + 1) (valueStep U P v x) (Verif.valueStep U P v' x') := by
  refine .orElse (.mapP (.mapP (.tag _))) (.orElse (.refl fun s r v h => ?_)
    (.orElse (.mapP (.orElse (.mapP (.tag _)) (.mapP (.tag _))))
    (.orElse (.mapP (.refl fun s r v h => (stringTok_consumes (string_iff.1 h)).suffix))
    (.orElse (.mapP ?_) (.mapP hx.mapExpression)))))
  · rw [oldNumber_eq] at h
    obtain ⟨r', v', h1, h2⟩ := bind_eq_ok.1 h
    have hs : r' <:+ s := by
      obtain ⟨r'', v'', h3, h4⟩ := bind_eq_ok.1 h1
      cases h4
      exact (numberTok_consumes (number_iff.1 h3)).suffix
    split at h2 <;> cases h2
    exact hs
  · exact .open (.inl rfl) fun _ => .bind (.separatedList (Agr.tupleSep (m := m)).sfx (.bind .ws fun _ => hv)) fun _ =>
      .bind .tupleEnd fun _ => .pure _

theorem Agr.mono {k : Nat} {p p' : Parser α} (h : Agr m p p') (hk : k ≤ m) : Agr k p p' :=
  ⟨fun s hs => h.eq s (by omega), h.sfx⟩

theorem Agr.mapStep {v v' : Parser Value} {x x' : Parser MapValues} (hv : Agr (m + 1) v v') (hx : Agr m x x') :
    Agr (m + 1) (mapStep U v x) (Verif.mapStep U v' x') := by
  have hk : Agr (m + 1) (oldKey U) (oldKey U) := .orElse (.mapP .identifier) (.mapP .stringLiteral)
  have h1 : Agr (m + 1) (attributeEq U v) (attributeEq U v') :=
    .bind .inlineWs fun _ => .bind hk fun _ => .bind .inlineWs fun _ => .bind (.tag _) fun _ => .bind .inlineWs fun _ =>
      .bind hv fun _ => .pure _
  have h2 : Agr (m + 1) (attributeMap U x) (attributeMap U x') :=
    .bind .inlineWs fun _ => .bind .identifier fun _ => .bind .inlineWs fun _ => .bind (.opt (.tag _)) fun _ =>
      .bind .inlineWs fun _ => .bind hx.mapExpression fun _ => .pure _
  have h3 : Agr (m + 1) (attributeBlock U x) (attributeBlock U x') :=
    .bind .inlineWs fun _ => .bind .identifier fun _ => .bind (.many0 (.bind .inlineWs fun _ => .stringLiteral)) fun _ =>
      .bind .inlineWs fun _ => .bind hx.mapExpression fun _ => .pure _
  have h4 : Agr (m + 1) (oldAttribute U v x) (oldAttribute U v' x') :=
    .bind (.orElse h1 (.orElse h2 h3)) fun _ => .bind .inlineWs fun _ => .pure _
  exact .bind (.many0 (.bind .ws fun _ => .bind h4 fun _ =>
    .bind (.orElse (.mapP (.wsAround (.tag _))) (.orElse (.mapP .newline) .eof)) fun _ => .pure _)) fun _ =>
    .bind .ws fun _ => .pure _

theorem oldN_agr : ∀ n k, Agr ((n + 1) / 2) (oldN U P n).1 (oldN U P (n + k)).1 ∧ Agr (n / 2) (oldN U P n).2 (oldN U P (n + k)).2
  | 0, k => ⟨⟨fun s h => (by omega), fun s r v h => (by cases h)⟩, ⟨fun s h => (by omega), fun s r v h => (by cases h)⟩⟩
  | n + 1, k => by
    rw [show n + 1 + k = n + k + 1 by omega]
    obtain ⟨hv, hx⟩ := oldN_agr n k
    refine ⟨?_, ?_⟩
    · rw [show (n + 1 + 1) / 2 = n / 2 + 1 by omega]
      exact (hv.mono (by omega)).valueStep hx
    · by_cases h : n = 0
      · refine ⟨fun s hs => by omega, ?_⟩
        exact (Agr.mapStep (m := 0) (U := U) (Agr.refl hv.sfx) (Agr.refl hx.sfx)).sfx
      · rw [show (n + 1) / 2 = ((n + 1) / 2 - 1) + 1 by omega] at hv ⊢
        exact hv.mapStep (hx.mono (by omega))

/-! ## more recursion changes nothing that has an outcome -/

/-- wherever `p` has an outcome, `p'` has the same -/
def Below (p p' : Parser α) : Prop := ∀ s, p s ≠ .diverge → p' s = p s

namespace Below

theorem refl (p : Parser α) : Below p p := fun _ _ => rfl

theorem bind {p p' : Parser α} {f f' : α → Parser β} (hp : Below p p') (hf : ∀ v, Below (f v) (f' v)) :
    Below (p >>= f) (p' >>= f') := by
  intro s h
  rw [bind_apply] at h ⊢
  rw [bind_apply]
  cases e : p s with
  | diverge => rw [e] at h; exact absurd rfl h
  | ok r v =>
    rw [hp s (by rw [e]; intro h; cases h), e]
    rw [e] at h
    exact hf v r h
  | _ => rw [hp s (by rw [e]; intro h; cases h), e]; rfl

theorem orElse {p p' q q' : Parser α} (hp : Below p p') (hq : Below q q') : Below (p <//> q) (p' <//> q') := by
  intro s h
  unfold Verif.orElse at h ⊢
  cases e : p s with
  | diverge => rw [e] at h; exact absurd rfl h
  | err => rw [hp s (by rw [e]; intro h; cases h), e]; rw [e] at h; exact hq s h
  | _ => rw [hp s (by rw [e]; intro h; cases h), e]

theorem mapP {p p' : Parser α} {g : α → β} (hp : Below p p') : Below (mapP g p) (Verif.mapP g p') := by
  intro s h
  rw [mapP_apply] at h ⊢
  rw [mapP_apply, hp s fun e => h (by rw [e]; rfl)]

theorem many0Aux {p p' : Parser α} (hp : Below p p') : ∀ n, Below (many0Aux p n) (Verif.many0Aux p' n)
  | 0 => fun _ h => absurd rfl h
  | n + 1 => by
    have ih := many0Aux hp n
    intro s h
    unfold Verif.many0Aux at h ⊢
    cases e : p s with
    | diverge => rw [e] at h; exact absurd rfl h
    | ok r v =>
      rw [hp s (by rw [e]; intro h; cases h), e]
      rw [e] at h
      simp only at h ⊢
      split
      · rename_i hl
        rw [if_pos hl] at h
        rw [show Verif.many0Aux p' n r = _ from ih r fun e' => h (by
          rw [show Verif.many0Aux p n r = _ from e']; rfl)]
      · rfl
    | _ => rw [hp s (by rw [e]; intro h; cases h), e]

theorem many0 {p p' : Parser α} (hp : Below p p') : Below (many0 p) (Verif.many0 p') := fun s => many0Aux hp _ s

theorem sepTailAux {sep : Parser β} {p p' : Parser α} (hp : Below p p') : ∀ n, Below (sepTailAux sep p n) (Verif.sepTailAux sep p' n)
  | 0 => fun _ h => absurd rfl h
  | n + 1 => by
    have ih := sepTailAux (sep := sep) hp n
    intro s h
    unfold Verif.sepTailAux at h ⊢
    cases e0 : sep s with
    | ok r0 v0 =>
      rw [e0] at h
      simp only at h ⊢
      cases e : p r0 with
      | diverge => rw [e] at h; exact absurd rfl h
      | ok r v =>
        rw [hp r0 (by rw [e]; intro h; cases h), e]
        rw [e] at h
        simp only at h ⊢
        split
        · rename_i hl
          rw [if_pos hl] at h
          rw [show Verif.sepTailAux sep p' n r = _ from ih r fun e' => h (by
            rw [show Verif.sepTailAux sep p n r = _ from e']; rfl)]
        · rfl
      | _ => rw [hp r0 (by rw [e]; intro h; cases h), e]
    | _ => rfl

theorem separatedList {sep : Parser β} {p p' : Parser α} (hp : Below p p') :
    Below (separatedList sep p) (Verif.separatedList sep p') := by
  intro s h
  unfold Verif.separatedList at h ⊢
  cases e : p s with
  | diverge => rw [e] at h; exact absurd rfl h
  | ok r v =>
    rw [hp s (by rw [e]; intro h; cases h), e]
    rw [e] at h
    simp only at h ⊢
    split
    · rename_i hl
      rw [if_pos hl] at h
      rw [sepTailAux hp _ r fun e' => h (by rw [e']; rfl)]
    · rfl
  | _ => rw [hp s (by rw [e]; intro h; cases h), e]

theorem wsAround {p p' : Parser α} (hp : Below p p') : Below (wsAround p) (Verif.wsAround p') :=
  .bind (.refl _) fun _ => .bind hp fun _ => .refl _

theorem mapExpression {x x' : Parser MapValues} (h : Below x x') : Below (mapExpression x) (Verif.mapExpression x') :=
  .bind (.refl _) fun _ => .bind (.wsAround h) fun _ => .refl _

theorem valueStep {v v' : Parser Value} {x x' : Parser MapValues} (hv : Below v v') (hx : Below x x') :
    Below (valueStep U P v x) (Verif.valueStep U P v' x') :=
  .orElse (.refl _) (.orElse (.refl _) (.orElse (.refl _) (.orElse (.refl _) (.orElse
    (.mapP (.bind (.refl _) fun _ => .bind (.separatedList (.bind (.refl _) fun _ => hv)) fun _ => .refl _))
    (.mapP hx.mapExpression)))))

theorem mapStep {v v' : Parser Value} {x x' : Parser MapValues} (hv : Below v v') (hx : Below x x') :
    Below (mapStep U v x) (Verif.mapStep U v' x') := by
  have h1 : Below (attributeEq U v) (attributeEq U v') :=
    .bind (.refl _) fun _ => .bind (.refl _) fun _ => .bind (.refl _) fun _ => .bind (.refl _) fun _ => .bind (.refl _) fun _ =>
      .bind hv fun _ => .refl _
  have h2 : Below (attributeMap U x) (attributeMap U x') :=
    .bind (.refl _) fun _ => .bind (.refl _) fun _ => .bind (.refl _) fun _ => .bind (.refl _) fun _ => .bind (.refl _) fun _ =>
      .bind hx.mapExpression fun _ => .refl _
  have h3 : Below (attributeBlock U x) (attributeBlock U x') :=
    .bind (.refl _) fun _ => .bind (.refl _) fun _ => .bind (.refl _) fun _ => .bind (.refl _) fun _ =>
      .bind hx.mapExpression fun _ => .refl _
  exact .bind (.many0 (.bind (.refl _) fun _ => .bind (.bind (.orElse h1 (.orElse h2 h3)) fun _ => .refl _) fun _ => .refl _))
    fun _ => .refl _

end Below

theorem oldN_below : ∀ n k, Below (oldN U P n).1 (oldN U P (n + k)).1 ∧ Below (oldN U P n).2 (oldN U P (n + k)).2
  | 0, k => ⟨fun s h => absurd rfl h, fun s h => absurd rfl h⟩
  | n + 1, k => by
    rw [show n + 1 + k = n + k + 1 by omega]
    obtain ⟨h1, h2⟩ := oldN_below n k
    exact ⟨h1.valueStep h2, h1.mapStep h2⟩

theorem oldN_depth {n : Nat} {s : Str} :
    (2 * openers s < n → (oldN U P n).1 s = singleValue U P s) ∧
    (2 * openers s + 1 < n → (oldN U P n).2 s = mapValues U P s) := by
  have hd := Loc.oldN (U := U) (P := P) (s.length + 1)
  have hb := oldN_below (U := U) (P := P) (s.length + 1) n
  have ha := oldN_agr (U := U) (P := P) n (s.length + 1)
  have he : n + (s.length + 1) = s.length + 1 + n := Nat.add_comm _ _
  refine ⟨fun h => ?_, fun h => ?_⟩
  · rw [ha.1.eq s (by omega), he]; exact hb.1 s (hd.1.div s (by omega))
  · rw [ha.2.eq s (by omega), he]; exact hb.2 s (hd.2.div s (by omega))

/-! ## texts that recurse as deep as possible -/

theorem skipLayout_nil : SkipLayout [] [] := by
  refine .refl ?_
  rintro ⟨i, t, hi, h⟩
  obtain ⟨c, u, e, -⟩ := layoutItem_head (t := t) hi
  rw [← h] at e; cases e

theorem exprN_deep (U : CharClass) : ∀ n, exprN U n (List.replicate n '[') = .diverge
  | 0 => rfl
  | n + 1 => by
    have ih := exprN_deep U n
    generalize hs : List.replicate n '[' = s at ih
    have hsk : SkipLayout s s := by
      cases n with
      | zero => subst hs; exact skipLayout_nil
      | succ n => subst hs; exact .refl (not_starts_layout (by unfold LayoutStart; decide))
    rw [List.replicate_succ, hs]
    show Verif.exprStep U (exprN U n) ('[' :: s) = _
    unfold Verif.exprStep
    rw [orElse_of_err (null_err (by rw [head_cons]; decide)), orElse_of_err,
      orElse_of_err (boolean_err (by rw [head_cons]; decide)), orElse_of_err (string_err (by rw [head_cons]; decide))]
    · have h1 : tupleElem (exprN U n) s = .diverge := by
        unfold tupleElem
        rw [ws_bind (fun _ _ => rfl) hsk]; exact ih
      have h2 : tuple (exprN U n) ('[' :: s) = .diverge := by
        unfold tuple
        rw [bind_apply, tag_cons_self, bind_ok, bind_apply]
        unfold separatedList
        rw [h1]; rfl
      unfold Verif.orElse
      rw [mapP_apply, h2]; rfl
    · rw [mapP_apply, number_err]
      · rfl
      · rw [head_cons, numHead_iff]; decide

theorem many0_diverge {p : Parser α} {s : Str} (h : p s = .diverge) : many0 p s = .diverge := by
  unfold many0 many0Aux
  rw [h]

theorem deepAttrs_skip (k : Nat) : SkipLayout (deepAttrs k) (deepAttrs k) := by
  refine .refl ?_
  cases k <;> exact not_starts_layout (by unfold LayoutStart; decide)

theorem ident_a (c : Char) (hc : c.val < 128) (h : U.idContinue c = false) (h' : c ≠ '-') (t : Str) :
    Ident U ('a' :: c :: t) ['a'] (c :: t) := by
  refine ⟨rfl, .mk _ _ (.inl ?_) (by simp), ?_⟩
  · rw [U.idStart_ascii _ (by decide)]; decide
  · rw [head_cons]
    rintro (h1 | h1)
    · rw [h] at h1; cases h1
    · exact h' h1

theorem mapStep_deep {v : Parser Value} {x : Parser MapValues} {t : Str} (ht : SkipLayout t t) (h : v t = .diverge) :
    mapStep U v x ('a' :: '=' :: t) = .diverge := by
  have hs : SkipLayout ('a' :: '=' :: t) ('a' :: '=' :: t) := .refl (not_starts_layout (by unfold LayoutStart; decide))
  have hid : Ident U ('a' :: '=' :: t) ['a'] ('=' :: t) :=
    ident_a '=' (by decide) (by rw [U.idContinue_ascii _ (by decide)]; decide) (by decide) t
  have he : SkipInline ('=' :: t) ('=' :: t) := skipInline_again (.refl (not_starts_layout (by unfold LayoutStart; decide)) : SkipLayout _ _)
  have h1 : attributeEq U v ('a' :: '=' :: t) = .diverge := by
    unfold attributeEq
    rw [inlineWs_bind (fun _ _ => rfl) (skipInline_again hs), bind_apply, oldKey_iff.2 (.ident _ _ _ hid), bind_ok,
      inlineWs_bind (fun _ _ => rfl) he, bind_apply, tag_cons_self, bind_ok, inlineWs_bind (fun _ _ => rfl) (skipInline_again ht),
      bind_apply, h]
    rfl
  have h2 : mapItem U v x ('a' :: '=' :: t) = .diverge := by
    unfold mapItem oldAttribute
    rw [ws_bind (fun _ _ => rfl) hs, bind_apply, bind_apply, orElse_eq_diverge.2 (.inl h1)]
    rfl
  unfold mapStep
  rw [bind_apply, many0_diverge h2]
  rfl

theorem oldN_deep (U : CharClass) (P : F64Parse) : ∀ k, (oldN U P (2 * k + 1)).2 (deepAttrs k) = .diverge
  | 0 => mapStep_deep skipLayout_nil rfl
  | k + 1 => by
    have ih := oldN_deep U P k
    have hb : SkipLayout ('{' :: deepAttrs k) ('{' :: deepAttrs k) := .refl (not_starts_layout (by unfold LayoutStart; decide))
    have hk := deepAttrs_skip k
    refine mapStep_deep (v := (oldN U P (2 * k + 2)).1) hb ?_
    rw [show 2 * k + 2 = (2 * k + 1) + 1 from rfl, oldN]
    simp only
    rw [valueStep_notToken (by rw [head_cons]; unfold NotToken; decide), mapP_apply]
    have h1 : wsAround (tag ['{']) ('{' :: deepAttrs k) = .ok (deepAttrs k) ['{'] :=
      wsAround_eq_ok.2 ⟨_, deepAttrs k, hb, tag_cons_self _ _, hk⟩
    have h2 : wsAround (oldN U P (2 * k + 1)).2 (deepAttrs k) = .diverge := by
      unfold wsAround
      rw [ws_bind (fun _ _ => rfl) hk, bind_apply, ih]
      rfl
    unfold mapExpression
    rw [bind_apply, h1, bind_ok, bind_apply, h2]
    rfl

theorem deepAttrs_openers : ∀ k, openers (deepAttrs k) = k
  | 0 => by decide
  | k + 1 => by
    have := deepAttrs_openers k
    unfold openers at this ⊢
    simp [deepAttrs, this]

theorem deepBlocks_openers : ∀ k, openers (deepBlocks k) = k
  | 0 => by decide
  | k + 1 => by
    have := deepBlocks_openers k
    unfold openers at this ⊢
    simp [deepBlocks, this]

theorem brackets_openers (k : Nat) : openers (List.replicate k '[') = k := by
  unfold openers
  rw [List.countP_replicate]; simp

theorem deepBlocks_skip (k : Nat) : SkipLayout (deepBlocks k) (deepBlocks k) := by
  cases k with
  | zero => exact skipLayout_nil
  | succ k => exact .refl (not_starts_layout (by unfold LayoutStart; decide))

theorem bodyN_deep (U : CharClass) : ∀ k, bodyN U k (deepBlocks k) = .diverge
  | 0 => rfl
  | k + 1 => by
    have ih := bodyN_deep U k
    have hs := deepBlocks_skip (k + 1)
    have h0 := skipInline_again hs
    have hk := deepBlocks_skip k
    have hid : Ident U (deepBlocks (k + 1)) ['a'] ('{' :: '\n' :: deepBlocks k) :=
      ident_a '{' (by decide) (by rw [U.idContinue_ascii _ (by decide)]; decide) (by decide) _
    have hb : SkipLayout ('{' :: '\n' :: deepBlocks k) ('{' :: '\n' :: deepBlocks k) :=
      .refl (not_starts_layout (by unfold LayoutStart; decide))
    have hbi := skipInline_again hb
    have h2 : IsLabels U ('{' :: '\n' :: deepBlocks k) [] ('\n' :: deepBlocks k) := .open _ _ hbi
    have hn : Newlines ('\n' :: deepBlocks k) (deepBlocks k) := ⟨['\n'], [], .eol _ .lf, .nil, rfl⟩
    have h3 : SkipInline ('\n' :: deepBlocks k) ('\n' :: deepBlocks k) :=
      .refl not_inline_nl
    have h1 : bodyElement U (bodyN U k) (deepBlocks (k + 1)) = .diverge := by
      unfold bodyElement
      obtain ⟨x, hx, hne⟩ := isLabels_head h2
      rw [orElse_of_err (by rw [mapP_apply, attributeP_err' h0 hid hx hne]; rfl), orElse_of_err]
      · unfold block
        rw [header_eq _ h0 hid h2, inlineWs_bind (fun _ _ => rfl) h3, bind_apply]
        obtain ⟨v1, _, l, h7, hl, hl'⟩ := newline_complete hn
        have : l = [] := by
          cases hl with
          | nil => rfl
          | cons => rename_i i l hi hl; exact absurd ⟨i, l ++ v1, hi, by rw [hl', List.append_assoc]⟩ hk.not_starts
        subst this
        rw [List.nil_append] at hl'
        subst hl'
        rw [h7, bind_ok, inlineWs_bind (fun _ _ => rfl) (skipInline_again hk), bind_apply, ih]
        rfl
      · unfold oneLineBlock
        rw [header_eq _ h0 hid h2, inlineWs_bind (fun _ _ => rfl) h3, bind_apply]
        have : opt (attributeP U) ('\n' :: deepBlocks k) = .ok ('\n' :: deepBlocks k) none := by
          rw [opt_eq_ok]; exact .inr ⟨attributeP_err h3 (newline_not_identStart hn), rfl, rfl⟩
        rw [this, bind_ok, inlineWs_bind (fun _ _ => rfl) h3, bind_apply, tag_cons_ne (by decide)]
        rfl
    have h4 : bodyItem U (bodyN U k) (deepBlocks (k + 1)) = .diverge := by
      unfold bodyItem
      rw [ws_bind (fun _ _ => rfl) hs, bind_apply, h1]
      rfl
    show bodyStep U (bodyN U k) _ = _
    unfold bodyStep
    rw [bind_apply, many0_diverge h4]
    rfl

/-! ## the parsers are fixed points of their productions -/

theorem expression_unfold (s : Str) : expression U s = Verif.exprStep U (expression U) s := by
  have h : Agr (s.length + 1) (exprN U (s.length + 1)) (expression U) :=
    ⟨fun t ht => exprN_depth ht, fun t r v h => (isExpr_consumes (exprN_sound _ _ _ _ h)).suffix⟩
  have h1 := (h.exprStep (U := U)).eq s (by have := openers_le s; omega)
  rw [← h1]
  exact (exprN_depth (n := s.length + 2) (by have := openers_le s; omega)).symm

theorem body_unfold (s : Str) : body U s = Verif.bodyStep U (body U) s := by
  have h : Agr (s.length + 1) (bodyN U (s.length + 1)) (body U) :=
    ⟨fun t ht => bodyN_depth ht, fun t r v h => isBody_suffix (bodyN_sound _ _ _ _ h)⟩
  have h1 := (h.bodyStep (U := U)).eq s (by have := openers_le s; omega)
  rw [← h1]
  exact (bodyN_depth (n := s.length + 2) (by have := openers_le s; omega)).symm

theorem old_unfold (s : Str) :
    singleValue U P s = Verif.valueStep U P (singleValue U P) (mapValues U P) s ∧
    mapValues U P s = Verif.mapStep U (singleValue U P) (mapValues U P) s := by
  have hA := oldN_agr (U := U) (P := P) (2 * s.length + 4) 0
  have h1 : Agr (s.length + 2) (oldN U P (2 * s.length + 4)).1 (singleValue U P) :=
    ⟨fun t ht => oldN_depth.1 (by omega), hA.1.sfx⟩
  have h2 : Agr (s.length + 1) (oldN U P (2 * s.length + 4)).2 (mapValues U P) :=
    ⟨fun t ht => oldN_depth.2 (by omega), hA.2.sfx⟩
  have hl := openers_le s
  refine ⟨?_, ?_⟩
  · rw [← ((h1.mono (by omega)).valueStep (U := U) (P := P) h2).eq s (by omega)]
    exact ((oldN_depth (n := 2 * s.length + 5)).1 (by omega)).symm
  · rw [← (Agr.mapStep (U := U) h1 h2).eq s (by omega)]
    exact ((oldN_depth (n := 2 * s.length + 5)).2 (by omega)).symm

end Verif
