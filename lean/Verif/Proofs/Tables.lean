import Verif.Proofs.Depth
import Verif.Spec.Tables
/-! # The parsers look up no character that is not in their input -/
set_option autoImplicit false

namespace Verif
open PRes Spec

variable {α β : Type}

/-- `p` and `p'` agree on texts of the characters `A`, and what `p` leaves is a suffix -/
structure TSame (A : Char → Prop) (p p' : Parser α) : Prop where
  eq : ∀ s, (∀ c ∈ s, A c) → p s = p' s
  sfx : ∀ s r v, p s = .ok r v → r <:+ s

namespace TSame
variable {A : Char → Prop}

theorem refl {p : Parser α} (h : ∀ s r v, p s = .ok r v → r <:+ s) : TSame A p p := ⟨fun _ _ => rfl, h⟩

theorem bind {p p' : Parser α} {f f' : α → Parser β} (hp : TSame A p p') (hf : ∀ v, TSame A (f v) (f' v)) :
    TSame A (p >>= f) (p' >>= f') := by
  refine ⟨fun s hs => ?_, fun s r v h => ?_⟩
  · rw [bind_apply, bind_apply, ← hp.eq s hs]
    cases h : p s with
    | ok r v => exact (hf v).eq r ((fun c hc => hs c ((hp.sfx s r v h).mem hc)))
    | _ => rfl
  · obtain ⟨r', v', h1, h2⟩ := bind_eq_ok.1 h
    exact ((hf v').sfx _ _ _ h2).trans (hp.sfx _ _ _ h1)

theorem pure (v : α) : TSame A (Pure.pure v : Parser α) (Pure.pure v) :=
  .refl fun s r w h => by cases h; exact List.suffix_refl _

theorem orElse {p p' q q' : Parser α} (hp : TSame A p p') (hq : TSame A q q') : TSame A (p <//> q) (p' <//> q') := by
  refine ⟨fun s hs => ?_, fun s r v h => ?_⟩
  · unfold Verif.orElse
    rw [← hp.eq s hs, ← hq.eq s hs]
  · rcases orElse_eq_ok.1 h with h | ⟨-, h⟩
    · exact hp.sfx _ _ _ h
    · exact hq.sfx _ _ _ h

theorem mapP {p p' : Parser α} {g : α → β} (hp : TSame A p p') : TSame A (mapP g p) (Verif.mapP g p') := by
  refine ⟨fun s hs => ?_, fun s r v h => ?_⟩
  · rw [mapP_apply, mapP_apply, hp.eq s hs]
  · obtain ⟨v', h, -⟩ := mapP_eq_ok.1 h
    exact hp.sfx _ _ _ h

theorem opt {p p' : Parser α} (hp : TSame A p p') : TSame A (opt p) (Verif.opt p') := by
  refine ⟨fun s hs => ?_, fun s r v h => ?_⟩
  · unfold Verif.opt; rw [hp.eq s hs]
  · rcases opt_eq_ok.1 h with ⟨v', h, -⟩ | ⟨-, rfl, -⟩
    · exact hp.sfx _ _ _ h
    · exact List.suffix_refl _

theorem recognize {p p' : Parser α} (hp : TSame A p p') : TSame A (recognize p) (Verif.recognize p') := by
  refine ⟨fun s hs => ?_, fun s r v h => ?_⟩
  · unfold Verif.recognize; rw [hp.eq s hs]
  · obtain ⟨r', v', h1, h2⟩ := bind_eq_ok.1 h
    cases h2; exact hp.sfx _ _ _ h1

theorem many0Aux {p p' : Parser α} (hp : TSame A p p') : ∀ n, TSame A (many0Aux p n) (Verif.many0Aux p' n)
  | 0 => ⟨fun _ _ => rfl, fun s r v h => by cases h⟩
  | n + 1 => by
    have ih := many0Aux hp n
    refine ⟨fun s hs => ?_, fun s r v h => ?_⟩
    · unfold Verif.many0Aux
      rw [← hp.eq s hs]
      cases h : p s with
      | ok r v => simp only; rw [show Verif.many0Aux p n r = _ from ih.eq r ((fun c hc => hs c ((hp.sfx s r v h).mem hc)))]
      | _ => rfl
    · unfold Verif.many0Aux at h
      cases h1 : p s with
      | ok r' v' =>
        rw [h1] at h
        simp only at h
        split at h
        · obtain ⟨v'', h2, -⟩ := map_eq_ok.1 h
          exact (ih.sfx _ _ _ h2).trans (hp.sfx _ _ _ h1)
        · cases h; exact List.suffix_refl _
      | err => rw [h1] at h; cases h; exact List.suffix_refl _
      | _ => rw [h1] at h; cases h

theorem many0 {p p' : Parser α} (hp : TSame A p p') : TSame A (many0 p) (Verif.many0 p') :=
  ⟨fun s hs => (many0Aux hp _).eq s hs, fun s r v h => (many0Aux hp _).sfx s r v h⟩

theorem sepTailAux {sep : Parser β} (hsep : ∀ s r v, sep s = .ok r v → r <:+ s) {p p' : Parser α} (hp : TSame A p p') :
    ∀ n, TSame A (sepTailAux sep p n) (Verif.sepTailAux sep p' n)
  | 0 => ⟨fun _ _ => rfl, fun s r v h => by cases h⟩
  | n + 1 => by
    have ih := sepTailAux hsep hp n
    refine ⟨fun s hs => ?_, fun s r v h => ?_⟩
    · unfold Verif.sepTailAux
      cases h : sep s with
      | ok r v =>
        have hr := (fun c hc => hs c ((hsep s r v h).mem hc) : ∀ c ∈ r, A c)
        simp only
        rw [← hp.eq r hr]
        cases h' : p r with
        | ok r' v' => simp only; rw [show Verif.sepTailAux sep p n r' = _ from ih.eq r' ((fun c hc => hr c ((hp.sfx r r' v' h').mem hc)))]
        | _ => rfl
      | _ => rfl
    · unfold Verif.sepTailAux at h
      cases h1 : sep s with
      | ok r' v' =>
        rw [h1] at h
        simp only at h
        cases h2 : p r' with
        | ok r'' v'' =>
          rw [h2] at h
          simp only at h
          split at h
          · obtain ⟨_, h3, -⟩ := map_eq_ok.1 h
            exact ((ih.sfx _ _ _ h3).trans (hp.sfx _ _ _ h2)).trans (hsep _ _ _ h1)
          · cases h
        | err => rw [h2] at h; cases h; exact List.suffix_refl _
        | _ => rw [h2] at h; cases h
      | err => rw [h1] at h; cases h; exact List.suffix_refl _
      | _ => rw [h1] at h; cases h

theorem separatedList {sep : Parser β} (hsep : ∀ s r v, sep s = .ok r v → r <:+ s) {p p' : Parser α} (hp : TSame A p p') :
    TSame A (separatedList sep p) (Verif.separatedList sep p') := by
  refine ⟨fun s hs => ?_, fun s r v h => ?_⟩
  · unfold Verif.separatedList
    rw [← hp.eq s hs]
    cases h : p s with
    | ok r v => simp only; rw [(sepTailAux hsep hp _).eq r ((fun c hc => hs c ((hp.sfx s r v h).mem hc)))]
    | _ => rfl
  · unfold Verif.separatedList at h
    cases h1 : p s with
    | ok r' v' =>
      rw [h1] at h
      simp only at h
      split at h
      · obtain ⟨_, h3, -⟩ := map_eq_ok.1 h
        exact ((sepTailAux hsep hp _).sfx _ _ _ h3).trans (hp.sfx _ _ _ h1)
      · cases h
    | err => rw [h1] at h; cases h; exact List.suffix_refl _
    | _ => rw [h1] at h; cases h


theorem tag (t : Str) : TSame A (tag t) (Verif.tag t) := .refl fun s r v h => by
  obtain ⟨rfl, -⟩ := tag_eq_ok.1 h; exact List.suffix_append _ _

theorem ws : TSame A Verif.ws Verif.ws := .refl (Agr.ws (m := 0)).sfx
theorem inlineWs : TSame A Verif.inlineWs Verif.inlineWs := .refl (Agr.inlineWs (m := 0)).sfx

theorem wsAround {p p' : Parser α} (hp : TSame A p p') : TSame A (wsAround p) (Verif.wsAround p') :=
  .bind ws fun _ => .bind hp fun _ => .bind ws fun _ => .pure _

theorem inlineWsAround {p p' : Parser α} (hp : TSame A p p') : TSame A (inlineWsAround p) (Verif.inlineWsAround p') :=
  .bind inlineWs fun _ => .bind hp fun _ => .bind inlineWs fun _ => .pure _

end TSame

theorem takeWhile_same {f g : Char → Bool} : ∀ s : Str, (∀ c ∈ s, f c = g c) → s.takeWhile f = s.takeWhile g ∧ s.dropWhile f = s.dropWhile g
  | [], _ => ⟨rfl, rfl⟩
  | c :: s, h => by
    have ih := takeWhile_same s fun c hc => h c (List.mem_cons_of_mem _ hc)
    have hc := h c List.mem_cons_self
    simp only [List.takeWhile_cons, List.dropWhile_cons, hc, ih.1, ih.2]
    exact ⟨trivial, trivial⟩

/-- the tables agree on the character -/
def AgreeOn (U U' : CharClass) (c : Char) : Prop :=
  U.idStart c = U'.idStart c ∧ U.idContinue c = U'.idContinue c ∧ U.alnum c = U'.alnum c

variable {U U' : CharClass} {P : F64Parse}

theorem TSame.takeWhile1 {A : Char → Prop} {f g : Char → Bool} (h : ∀ c, A c → f c = g c) :
    TSame A (takeWhile1 f) (Verif.takeWhile1 g) := by
  refine ⟨fun s hs => ?_, fun s r v e => ?_⟩
  · obtain ⟨h1, h2⟩ := takeWhile_same s fun c hc => h c (hs c hc)
    unfold Verif.takeWhile1; rw [h1, h2]
  · unfold Verif.takeWhile1 at e
    split at e <;> cases e
    exact List.dropWhile_suffix _

theorem TSame.identifier : TSame (AgreeOn U U') (identifier U) (Verif.identifier U') := by
  refine ⟨fun s hs => ?_, fun s r v h => (ident_consumes (identifier_iff.1 h)).suffix⟩
  have h : ∀ c ∈ s, identChar U c = identChar U' c := fun c hc => by unfold identChar; rw [(hs c hc).2.1]
  obtain ⟨h1, h2⟩ := takeWhile_same s h
  unfold Verif.identifier Verif.verify Verif.takeWhile1
  rw [h1, h2]
  split
  · rfl
  · simp only [PRes.bind]
    cases e : s.takeWhile (identChar U') with
    | nil => rfl
    | cons c t =>
      have : c ∈ s := by
        have := List.takeWhile_prefix (l := s) (identChar U')
        rw [e] at this
        exact this.mem List.mem_cons_self
      have hi : identStart U c = identStart U' c := by unfold identStart; rw [(hs c this).1]
      simp only [hi]

theorem TSame.stringLiteral {A : Char → Prop} : TSame A stringLiteral Verif.stringLiteral := .refl (Agr.stringLiteral (m := 0)).sfx
theorem TSame.newline {A : Char → Prop} : TSame A newline Verif.newline := .refl (Agr.newline (m := 0)).sfx
theorem TSame.eof {A : Char → Prop} : TSame A eof Verif.eof := .refl (Agr.eof (m := 0)).sfx
theorem TSame.tupleEnd {A : Char → Prop} : TSame A tupleEnd Verif.tupleEnd := .refl (Agr.tupleEnd (m := 0)).sfx

theorem TSame.string : TSame (AgreeOn U U') (string U) (Verif.string U') := by
  refine ⟨fun s hs => ?_, fun s r v h => (stringTok_consumes (string_iff.1 h)).suffix⟩
  have hb : heredocBegin U s = heredocBegin U' s := by
    refine (TSame.bind (.tag _) fun _ => .bind (.opt (.tag _)) fun _ => .bind (.takeWhile1 fun c hc => ?_) fun _ =>
      .bind (.refl fun s r v h => ?_) fun _ => .pure _ : TSame (AgreeOn U U') _ _).eq s hs
    · unfold heredocChar; rw [hc.2.2]
    · obtain ⟨_, _, _, h⟩ := bind_eq_ok.1 h
      cases h
      exact List.suffix_refl _
  have hh : heredocString U s = heredocString U' s := by
    unfold heredocString
    rw [bind_apply, bind_apply, hb]
  unfold Verif.string Verif.orElse
  rw [hh]

/-! ## expressions -/

theorem TSame.expression' {e e' : Parser Expr} (he : TSame (AgreeOn U U') e e') :
    TSame (AgreeOn U U') (exprStep U e) (Verif.exprStep U' e') := by
  have hk : TSame (AgreeOn U U') (objectElementIdentifier U e) (objectElementIdentifier U' e') :=
    .orElse (.mapP .identifier) (.mapP (.recognize he))
  have hel : TSame (AgreeOn U U') (objectElement U e) (objectElement U' e') :=
    .bind .inlineWs fun _ => .bind hk fun _ => .bind .inlineWs fun _ => .bind (.tag _) fun _ => .bind .inlineWs fun _ =>
      .bind he fun _ => .bind .inlineWs fun _ => .pure _
  have hit : TSame (AgreeOn U U') (objectItem U e) (objectItem U' e') :=
    .bind .ws fun _ => .bind hel fun _ =>
      .bind (.refl fun s r v h => objectSep_suffix (objectSeparator_sound h)) fun _ => .pure _
  have hob : TSame (AgreeOn U U') (objectBody U e) (objectBody U' e') := .bind (.many0 hit) fun _ => .bind .ws fun _ => .pure _
  refine .orElse (.mapP (.mapP (.tag _))) (.orElse (.mapP (.refl fun s r v h => (numberTok_consumes (number_iff.1 h)).suffix))
    (.orElse (.mapP (.orElse (.mapP (.tag _)) (.mapP (.tag _))))
    (.orElse (.mapP .string) (.orElse (.mapP ?_) (.orElse (.mapP ?_) ?_)))))
  · exact .bind (.tag _) fun _ => .bind (.separatedList (Agr.tupleSep (m := 0)).sfx (.bind .ws fun _ => he)) fun _ =>
      .bind .tupleEnd fun _ => .pure _
  · exact .bind (.wsAround (.tag _)) fun _ => .bind (.wsAround hob) fun _ => .bind (.tag _) fun _ => .pure _
  · exact .bind (.wsAround (.tag _)) fun _ => .bind (.wsAround he) fun _ => .bind (.tag _) fun _ => .pure _

theorem exprN_tables : ∀ n, TSame (AgreeOn U U') (exprN U n) (exprN U' n)
  | 0 => ⟨fun s h => rfl, fun s r v h => (by cases h)⟩
  | n + 1 => (exprN_tables n).expression'

theorem expression_tables : TSame (AgreeOn U U') (expression U) (expression U') :=
  ⟨fun s hs => (exprN_tables _).eq s hs, fun s r v h => (exprN_tables (U' := U') _).sfx s r v h⟩

/-! ## bodies -/

theorem TSame.body' {b b' : Parser Body} (hb : TSame (AgreeOn U U') b b') :
    TSame (AgreeOn U U') (bodyStep U b) (Verif.bodyStep U' b') := by
  have ha : TSame (AgreeOn U U') (attributeP U) (attributeP U') :=
    .bind .inlineWs fun _ => .bind .identifier fun _ => .bind .inlineWs fun _ => .bind (.tag _) fun _ =>
      .bind .inlineWs fun _ => .bind expression_tables fun _ => .bind .inlineWs fun _ => .pure _
  have hl : TSame (AgreeOn U U') (blockLabels U) (blockLabels U') :=
    .many0 (.inlineWsAround (.orElse (.mapP .identifier) (.mapP .stringLiteral)))
  have ho : TSame (AgreeOn U U') (oneLineBlock U) (oneLineBlock U') :=
    .bind .inlineWs fun _ => .bind .identifier fun _ => .bind .inlineWs fun _ => .bind hl fun _ => .bind .inlineWs fun _ =>
      .bind (.tag _) fun _ => .bind .inlineWs fun _ => .bind (.opt ha) fun _ => .bind .inlineWs fun _ =>
      .bind (.tag _) fun _ => .bind .inlineWs fun _ => .pure _
  have hbl : TSame (AgreeOn U U') (block U b) (block U' b') :=
    .bind .inlineWs fun _ => .bind .identifier fun _ => .bind .inlineWs fun _ => .bind hl fun _ => .bind .inlineWs fun _ =>
      .bind (.tag _) fun _ => .bind .inlineWs fun _ => .bind .newline fun _ => .bind .inlineWs fun _ =>
      .bind hb fun _ => .bind .inlineWs fun _ => .bind (.tag _) fun _ => .bind .inlineWs fun _ => .pure _
  exact .bind (.many0 (.bind .ws fun _ => .bind (.orElse (.mapP ha) (.orElse ho hbl)) fun _ =>
    .bind (.orElse (.mapP .newline) .eof) fun _ => .pure _)) fun _ => .bind .ws fun _ => .pure _

theorem bodyN_tables : ∀ n, TSame (AgreeOn U U') (bodyN U n) (bodyN U' n)
  | 0 => ⟨fun s h => rfl, fun s r v h => (by cases h)⟩
  | n + 1 => (bodyN_tables n).body'

theorem parseStr_tables {s : Str} (h : SameOn U U' s) : parseStr U s = parseStr U' s := by
  have : body U s = body U' s := (bodyN_tables _).eq s h
  unfold parseStr configFile Verif.exact
  rw [this]

theorem exprParse_tables {s : Str} (h : SameOn U U' s) : Expr.parse U s = Expr.parse U' s := by
  unfold Expr.parse
  rw [show expression U s = expression U' s from expression_tables.eq s h]

/-! ## legacy values -/

theorem TSame.mapExpression {A : Char → Prop} {x x' : Parser MapValues} (h : TSame A x x') :
    TSame A (mapExpression x) (Verif.mapExpression x') :=
  .bind (.wsAround (.tag _)) fun _ => .bind (.wsAround h) fun _ => .bind (.tag _) fun _ => .pure _

theorem oldNumber_suffix {s r : Str} {v : Value} (h : oldNumber P s = .ok r v) : r <:+ s := by
  rw [oldNumber_eq] at h
  obtain ⟨r', v', h1, h2⟩ := bind_eq_ok.1 h
  have hs : r' <:+ s := by
    obtain ⟨r'', v'', h3, h4⟩ := bind_eq_ok.1 h1
    cases h4
    exact (numberTok_consumes (number_iff.1 h3)).suffix
  split at h2 <;> cases h2
  exact hs

theorem TSame.valueStep {v v' : Parser Value} {x x' : Parser MapValues} (hv : TSame (AgreeOn U U') v v')
    (hx : TSame (AgreeOn U U') x x') : TSame (AgreeOn U U') (valueStep U P v x) (Verif.valueStep U' P v' x') :=
  .orElse (.mapP (.mapP (.tag _))) (.orElse (.refl fun s r v h => oldNumber_suffix h)
    (.orElse (.mapP (.orElse (.mapP (.tag _)) (.mapP (.tag _))))
    (.orElse (.mapP .string)
    (.orElse (.mapP (.bind (.tag _) fun _ => .bind (.separatedList (Agr.tupleSep (m := 0)).sfx (.bind .ws fun _ => hv)) fun _ =>
      .bind .tupleEnd fun _ => .pure _)) (.mapP hx.mapExpression)))))

theorem TSame.mapStep {v v' : Parser Value} {x x' : Parser MapValues} (hv : TSame (AgreeOn U U') v v')
    (hx : TSame (AgreeOn U U') x x') : TSame (AgreeOn U U') (mapStep U v x) (Verif.mapStep U' v' x') := by
  have hk : TSame (AgreeOn U U') (oldKey U) (oldKey U') := .orElse (.mapP .identifier) (.mapP .stringLiteral)
  have h1 : TSame (AgreeOn U U') (attributeEq U v) (attributeEq U' v') :=
    .bind .inlineWs fun _ => .bind hk fun _ => .bind .inlineWs fun _ => .bind (.tag _) fun _ => .bind .inlineWs fun _ =>
      .bind hv fun _ => .pure _
  have h2 : TSame (AgreeOn U U') (attributeMap U x) (attributeMap U' x') :=
    .bind .inlineWs fun _ => .bind .identifier fun _ => .bind .inlineWs fun _ => .bind (.opt (.tag _)) fun _ =>
      .bind .inlineWs fun _ => .bind hx.mapExpression fun _ => .pure _
  have h3 : TSame (AgreeOn U U') (attributeBlock U x) (attributeBlock U' x') :=
    .bind .inlineWs fun _ => .bind .identifier fun _ => .bind (.many0 (.bind .inlineWs fun _ => .stringLiteral)) fun _ =>
      .bind .inlineWs fun _ => .bind hx.mapExpression fun _ => .pure _
  have h4 : TSame (AgreeOn U U') (oldAttribute U v x) (oldAttribute U' v' x') :=
    .bind (.orElse h1 (.orElse h2 h3)) fun _ => .bind .inlineWs fun _ => .pure _
  exact .bind (.many0 (.bind .ws fun _ => .bind h4 fun _ =>
    .bind (.orElse (.mapP (.wsAround (.tag _))) (.orElse (.mapP .newline) .eof)) fun _ => .pure _)) fun _ =>
    .bind .ws fun _ => .pure _

theorem oldN_tables : ∀ n, TSame (AgreeOn U U') (oldN U P n).1 (oldN U' P n).1 ∧ TSame (AgreeOn U U') (oldN U P n).2 (oldN U' P n).2
  | 0 => ⟨⟨fun s h => rfl, fun s r v h => (by cases h)⟩, ⟨fun s h => rfl, fun s r v h => (by cases h)⟩⟩
  | n + 1 => ⟨(oldN_tables n).1.valueStep (oldN_tables n).2, (oldN_tables n).1.mapStep (oldN_tables n).2⟩

theorem fromStr_tables {s : Str} (h : SameOn U U' s) (merge : Option MergeBehaviour) :
    fromStr U P s merge = fromStr U' P s merge := by
  have : mapValues U P s = mapValues U' P s := (oldN_tables _).2.eq s h
  unfold fromStr oldBody Verif.exact
  rw [this]

theorem sameOn_ascii {s : Str} (h : Ascii s) : SameOn U U' s := fun c hc => by
  rw [U.idStart_ascii c (h c hc), U'.idStart_ascii c (h c hc), U.idContinue_ascii c (h c hc), U'.idContinue_ascii c (h c hc),
    U.alnum_ascii c (h c hc), U'.alnum_ascii c (h c hc)]
  exact ⟨rfl, rfl, rfl⟩

end Verif
