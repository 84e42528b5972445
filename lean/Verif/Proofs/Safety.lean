import Verif.Proofs.Body
/-! # Termination and panics of the whole parser -/
set_option autoImplicit false

namespace Verif
open PRes Spec

/-- `p` returns suffixes of its input, panics only if some suffix of the input satisfies `B`, and does not
run out of fuel on inputs shorter than `n`. -/
structure Loc (B : Str → Prop) (n : Nat) {α : Type} (p : Parser α) : Prop where
  suf : ∀ s r v, p s = .ok r v → r <:+ s
  pan : ∀ s, p s = .panic → ∃ u, u <:+ s ∧ B u
  div : ∀ s, s.length < n → p s ≠ .diverge

section
variable {B : Str → Prop} {n : Nat} {α β : Type}

theorem Loc.of_safe {p : Parser α} (hs : Safe p) (hp : ∀ s r v, p s = .ok r v → r <:+ s) : Loc B n p :=
  ⟨hp, fun s h => absurd h (hs s).1, fun s _ => (hs s).2⟩

theorem Loc.mono {m : Nat} {p : Parser α} (h : Loc B n p) (hm : m ≤ n) : Loc B m p :=
  ⟨h.suf, h.pan, fun s hs => h.div s (by omega)⟩

theorem Loc.pure (v : α) : Loc B n (Pure.pure v : Parser α) :=
  .of_safe (Tame.pure v).safe fun s r w h => by
    rw [pure_apply] at h; injection h with h1 _; subst h1; exact List.suffix_refl _

theorem Loc.tag (t : Str) : Loc B n (tag t) :=
  .of_safe (Tame.tag t).safe fun s r w h => by obtain ⟨rfl, -⟩ := tag_eq_ok.1 h; exact List.suffix_append _ _

theorem Loc.bind {p : Parser α} {f : α → Parser β} (hp : Loc B n p) (hf : ∀ v, Loc B n (f v)) :
    Loc B n (p >>= f) where
  suf s r v h := by
    obtain ⟨r', v', h1, h2⟩ := bindP_eq_ok.1 h
    exact ((hf v').suf _ _ _ h2).trans (hp.suf _ _ _ h1)
  pan s h := by
    rw [bind_apply, bind_eq_panic] at h
    rcases h with h | ⟨r, v, h1, h2⟩
    · exact hp.pan s h
    · obtain ⟨u, hu, hb⟩ := (hf v).pan r h2
      exact ⟨u, hu.trans (hp.suf _ _ _ h1), hb⟩
  div s hs h := by
    rw [bind_apply, bind_eq_diverge] at h
    rcases h with h | ⟨r, v, h1, h2⟩
    · exact hp.div s hs h
    · exact (hf v).div r (by have := (hp.suf _ _ _ h1).length_le; omega) h2

/-- After a parser that always consumes something, less fuel is needed. -/
theorem Loc.bindStrict {p : Parser α} {f : α → Parser β} (hp : Loc B (n + 1) p)
    (hc : ∀ s r v, p s = .ok r v → r.length < s.length) (hf : ∀ v, Loc B n (f v)) :
    Loc B (n + 1) (p >>= f) where
  suf s r v h := by
    obtain ⟨r', v', h1, h2⟩ := bindP_eq_ok.1 h
    exact ((hf v').suf _ _ _ h2).trans (hp.suf _ _ _ h1)
  pan s h := by
    rw [bind_apply, bind_eq_panic] at h
    rcases h with h | ⟨r, v, h1, h2⟩
    · exact hp.pan s h
    · obtain ⟨u, hu, hb⟩ := (hf v).pan r h2
      exact ⟨u, hu.trans (hp.suf _ _ _ h1), hb⟩
  div s hs h := by
    rw [bind_apply, bind_eq_diverge] at h
    rcases h with h | ⟨r, v, h1, h2⟩
    · exact hp.div s hs h
    · exact (hf v).div r (by have := hc _ _ _ h1; omega) h2

theorem Loc.orElse {p q : Parser α} (hp : Loc B n p) (hq : Loc B n q) : Loc B n (p <//> q) where
  suf s r v h := by
    rcases orElse_eq_ok.1 h with h | ⟨-, h⟩
    · exact hp.suf _ _ _ h
    · exact hq.suf _ _ _ h
  pan s h := by
    rcases orElse_eq_panic.1 h with h | ⟨-, h⟩
    · exact hp.pan _ h
    · exact hq.pan _ h
  div s hs h := by
    rcases orElse_eq_diverge.1 h with h | ⟨-, h⟩
    · exact hp.div _ hs h
    · exact hq.div _ hs h

theorem Loc.mapP {g : α → β} {p : Parser α} (hp : Loc B n p) : Loc B n (mapP g p) where
  suf s r v h := by obtain ⟨w, h, -⟩ := mapP_eq_ok.1 h; exact hp.suf _ _ _ h
  pan s h := hp.pan s (by simpa using h)
  div s hs h := hp.div s hs (by simpa using h)

theorem Loc.opt {p : Parser α} (hp : Loc B n p) : Loc B n (opt p) where
  suf s r v h := by
    rcases opt_eq_ok.1 h with ⟨w, h, -⟩ | ⟨-, rfl, -⟩
    · exact hp.suf _ _ _ h
    · exact List.suffix_refl _
  pan s h := hp.pan s (by revert h; unfold Verif.opt; cases p s <;> simp)
  div s hs h := hp.div s hs (by revert h; unfold Verif.opt; cases p s <;> simp)

theorem Loc.recognize {p : Parser α} (hp : Loc B n p) : Loc B n (recognize p) where
  suf s r v h := by
    unfold Verif.recognize at h
    obtain ⟨r', w, h1, h2⟩ := bind_eq_ok.1 h
    injection h2 with h3 _; subst h3; exact hp.suf _ _ _ h1
  pan s h := hp.pan s (by
    unfold Verif.recognize at h
    rcases bind_eq_panic.1 h with h | ⟨_, _, _, h⟩
    · exact h
    · cases h)
  div s hs h := hp.div s hs (by
    unfold Verif.recognize at h
    rcases bind_eq_diverge.1 h with h | ⟨_, _, _, h⟩
    · exact h
    · cases h)

theorem Loc.many0 {p : Parser α} (hp : Loc B n p) : Loc B n (many0 p) where
  suf s r v h := by
    rw [many0_eq_ok] at h
    induction h with
    | stop => exact List.suffix_refl _
    | stuck => exact List.suffix_refl _
    | cons s r v vs t h hl _ ih => exact ih.trans (hp.suf _ _ _ h)
  pan s h := by
    obtain ⟨t, ht, h⟩ := (many0_bad (fun t => t <:+ s) (List.suffix_refl _)
      (fun s' r v h1 h2 _ => (hp.suf _ _ _ h2).trans h1) _ rfl).1 h
    obtain ⟨u, hu, hb⟩ := hp.pan t h
    exact ⟨u, hu.trans ht, hb⟩
  div s hs h := by
    obtain ⟨t, ht, h⟩ := (many0_bad (fun t => t <:+ s) (List.suffix_refl _)
      (fun s' r v h1 h2 _ => (hp.suf _ _ _ h2).trans h1) _ rfl).2.1 h
    exact hp.div t (by have := ht.length_le; omega) h

theorem Loc.sepTail {σ : Type} {sep : Parser σ} {p : Parser α} (hs : Loc B n sep) (hp : Loc B n p) :
    ∀ m : Nat, (∀ s r v, sepTailAux sep p m s = .ok r v → r <:+ s) ∧
      (∀ s, sepTailAux sep p m s = .panic → ∃ u, u <:+ s ∧ B u) ∧
      (∀ s, s.length < m → s.length < n → sepTailAux sep p m s ≠ .diverge) := by
  intro m
  induction m with
  | zero => exact ⟨fun s r v h => (by cases h), fun s h => (by cases h), fun s h => by omega⟩
  | succ m ih =>
    obtain ⟨ih1, ih2, ih3⟩ := ih
    refine ⟨fun s r v h => ?_, fun s h => ?_, fun s h1 h2 h => ?_⟩ <;> rw [sepTailAux_succ] at h <;> split at h
    all_goals try (cases h; done)
    all_goals try (exact List.suffix_refl _)
    · cases h; exact List.suffix_refl _
    · rename_i t w hw
      split at h
      all_goals try (cases h; done)
      · cases h; exact List.suffix_refl _
      · split at h
        · obtain ⟨vs, h, -⟩ := map_eq_ok.1 h
          exact (ih1 _ _ _ h).trans ((hp.suf _ _ _ ‹_›).trans (hs.suf _ _ _ ‹_›))
        · cases h
    · exact hs.pan _ ‹_›
    · rename_i t w hw
      split at h
      all_goals try (cases h; done)
      · obtain ⟨u, hu, hb⟩ := hp.pan _ ‹_›
        exact ⟨u, hu.trans (hs.suf _ _ _ hw), hb⟩
      · split at h
        · rw [map_eq_panic] at h
          obtain ⟨u, hu, hb⟩ := ih2 _ h
          exact ⟨u, hu.trans ((hp.suf _ _ _ ‹_›).trans (hs.suf _ _ _ ‹_›)), hb⟩
        · cases h
    · exact hs.div _ h2 ‹_›
    · rename_i t w hw
      have lt := (hs.suf _ _ _ hw).length_le
      split at h
      all_goals try (cases h; done)
      · exact hp.div t (by omega) ‹_›
      · split at h
        · rw [map_eq_diverge] at h
          exact ih3 _ (by omega) (by omega) h
        · cases h

theorem Loc.separatedList {σ : Type} {sep : Parser σ} {p : Parser α} (hs : Loc B n sep) (hp : Loc B n p) :
    Loc B n (separatedList sep p) where
  suf s r v h := by
    unfold Verif.separatedList at h
    split at h
    all_goals try (cases h; done)
    · cases h; exact List.suffix_refl _
    · split at h
      · obtain ⟨vs, h, -⟩ := map_eq_ok.1 h
        exact ((Loc.sepTail hs hp _).1 _ _ _ h).trans (hp.suf _ _ _ ‹_›)
      · cases h
  pan s h := by
    unfold Verif.separatedList at h
    split at h
    all_goals try (cases h; done)
    · exact hp.pan _ ‹_›
    · split at h
      · rw [map_eq_panic] at h
        obtain ⟨u, hu, hb⟩ := (Loc.sepTail hs hp _).2.1 _ h
        exact ⟨u, hu.trans (hp.suf _ _ _ ‹_›), hb⟩
      · cases h
  div s hl h := by
    unfold Verif.separatedList at h
    split at h
    all_goals try (cases h; done)
    · exact hp.div _ hl ‹_›
    · split at h
      · rw [map_eq_diverge] at h
        exact (Loc.sepTail hs hp _).2.2 _ (by omega) (by omega) h
      · cases h

theorem Loc.ws : Loc B n ws := .of_safe Tame.ws.safe fun _ _ _ h => (ws_skip h).suffix
theorem Loc.inlineWs : Loc B n inlineWs := .of_safe Tame.inlineWs.safe fun _ _ _ h => (inlineWs_skip h).suffix
theorem Loc.newline : Loc B n newline :=
  .of_safe Tame.newline.safe fun _ _ _ h => (newlines_consumes (newline_sound h)).suffix
theorem Loc.eof : Loc B n eof := .of_safe Tame.eof.safe fun s r v h => by
  obtain ⟨rfl, rfl⟩ := eof_eq_ok.1 h; exact List.suffix_refl _
theorem Loc.wsAround {p : Parser α} (hp : Loc B n p) : Loc B n (wsAround p) :=
  .bind .ws fun _ => .bind hp fun _ => .bind .ws fun _ => .pure _
theorem Loc.inlineWsAround {p : Parser α} (hp : Loc B n p) : Loc B n (inlineWsAround p) :=
  .bind .inlineWs fun _ => .bind hp fun _ => .bind .inlineWs fun _ => .pure _
theorem Loc.identifier (U : CharClass) : Loc B n (identifier U) :=
  .of_safe (Tame.identifier U).safe fun _ _ _ h => (ident_consumes (identifier_iff.1 h)).suffix
theorem Loc.peek {p : Parser α} (hp : Loc B n p) : Loc B n (peek p) where
  suf s r v h := by obtain ⟨rfl, -⟩ := peek_eq_ok.1 h; exact List.suffix_refl _
  pan s h := hp.pan s (by
    unfold Verif.peek at h
    rcases bind_eq_panic.1 h with h | ⟨_, _, _, h⟩
    · exact h
    · cases h)
  div s hs h := hp.div s hs (by
    unfold Verif.peek at h
    rcases bind_eq_diverge.1 h with h | ⟨_, _, _, h⟩
    · exact h
    · cases h)
end

/-! ## expressions -/
section
variable {U : CharClass} {n : Nat}

theorem Tame.boolean : Tame boolean := .orElse (.mapP (.tag _)) (.mapP (.tag _))

theorem Loc.boolean {B : Str → Prop} : Loc B n boolean := .orElse (.mapP (.tag _)) (.mapP (.tag _))
theorem Loc.null {B : Str → Prop} : Loc B n null := .mapP (.tag _)
theorem Loc.number {B : Str → Prop} : Loc B n number :=
  .of_safe Tame.number.safe fun _ _ _ h => (numberTok_consumes (number_iff.1 h)).suffix

theorem Loc.string : Loc (HeredocPanics U) n (string U) where
  suf s r v h := (stringTok_consumes (string_iff.1 h)).suffix
  pan s h := by
    unfold Verif.string at h
    rcases orElse_eq_panic.1 h with h | ⟨-, h⟩
    · exact absurd h (Safe.quotedString.mapP s).1
    · exact ⟨s, List.suffix_refl _, heredocString_panic.1 h⟩
  div s _ h := by
    unfold Verif.string at h
    rcases orElse_eq_diverge.1 h with h | ⟨-, h⟩
    · exact (Safe.quotedString.mapP s).2 h
    · exact (heredocString_not U s).2 h

theorem tag_strict {c : Char} {s r v : Str} (h : tag [c] s = .ok r v) : r.length < s.length := by
  obtain ⟨rfl, -⟩ := tag_eq_ok.1 h; simp

theorem wsTag_strict {c : Char} {s r v : Str} (h : wsAround (tag [c]) s = .ok r v) : r.length < s.length := by
  obtain ⟨t, u, h1, h2, h3⟩ := wsAround_eq_ok.1 h
  have := tag_strict h2; have := h1.length; have := h3.length; omega

variable {B : Str → Prop} {e : Parser Expr}

theorem Loc.tuple (he : Loc B n e) : Loc B (n + 1) (tuple e) :=
  .bindStrict (.tag _) (fun _ _ _ => tag_strict) fun _ =>
    .bind (.separatedList (.bind .ws fun _ => .tag _) (.bind .ws fun _ => he)) fun _ =>
    .bind (.bind .ws fun _ => .bind (.wsAround (.opt (.tag _))) fun _ => .bind (.tag _) fun _ => .pure _) fun _ => .pure _

theorem Loc.objectBody (he : Loc B n e) : Loc B n (objectBody U e) :=
  .bind (.many0 (.bind .ws fun _ => .bind
    (.bind .inlineWs fun _ => .bind (.orElse (.mapP (.identifier U)) (.mapP (.recognize he))) fun _ =>
      .bind .inlineWs fun _ => .bind (.tag _) fun _ => .bind .inlineWs fun _ => .bind he fun _ =>
      .bind .inlineWs fun _ => .pure _) fun _ =>
    .bind (.orElse (.mapP (.tag _)) (.orElse (.mapP .newline) (.mapP (.peek (.tag _))))) fun _ => .pure _)) fun _ =>
  .bind .ws fun _ => .pure _

theorem Loc.object (he : Loc B n e) : Loc B (n + 1) (object U e) :=
  .bindStrict (.wsAround (.tag _)) (fun _ _ _ => wsTag_strict) fun _ =>
    .bind (.wsAround (.objectBody he)) fun _ => .bind (.tag _) fun _ => .pure _

theorem Loc.bracket (he : Loc B n e) : Loc B (n + 1) (bracketExpression e) :=
  .bindStrict (.wsAround (.tag _)) (fun _ _ _ => wsTag_strict) fun _ =>
    .bind (.wsAround he) fun _ => .bind (.tag _) fun _ => .pure _

theorem Loc.exprStep (he : Loc (HeredocPanics U) n e) : Loc (HeredocPanics U) (n + 1) (exprStep U e) :=
  .orElse (.mapP .null) (.orElse (.mapP .number) (.orElse (.mapP .boolean) (.orElse (.mapP .string)
    (.orElse (.mapP (.tuple he)) (.orElse (.mapP (.object he)) (.bracket he))))))

theorem Loc.exprN : ∀ n : Nat, Loc (HeredocPanics U) n (exprN U n) := by
  intro n
  induction n with
  | zero => exact ⟨fun _ _ _ h => (by cases h), fun _ h => (by cases h), fun s h => by omega⟩
  | succ n ih => exact .exprStep ih

theorem Loc.expression : Loc (HeredocPanics U) n (expression U) where
  suf _ _ _ h := (isExpr_consumes (expression_iff.1 h)).suffix
  pan s h := (Loc.exprN (s.length + 1)).pan s h
  div s _ h := (Loc.exprN (s.length + 1)).div s (by omega) h

theorem Loc.attribute : Loc (HeredocPanics U) n (attributeP U) :=
  .bind .inlineWs fun _ => .bind (.identifier U) fun _ => .bind .inlineWs fun _ => .bind (.tag _) fun _ =>
  .bind .inlineWs fun _ => .bind .expression fun _ => .bind .inlineWs fun _ => .pure _

theorem Loc.blockLabels : Loc B n (blockLabels U) :=
  .many0 (.inlineWsAround (.orElse (.mapP (.identifier U)) (.mapP
    (.of_safe Safe.stringLiteral fun _ _ _ h => (quoted_consumes (stringLiteral_iff.1 h)).suffix))))

theorem Loc.oneLineBlock : Loc (HeredocPanics U) n (oneLineBlock U) :=
  .bind .inlineWs fun _ => .bind (.identifier U) fun _ => .bind .inlineWs fun _ => .bind .blockLabels fun _ =>
  .bind .inlineWs fun _ => .bind (.tag _) fun _ => .bind .inlineWs fun _ => .bind (.opt .attribute) fun _ =>
  .bind .inlineWs fun _ => .bind (.tag _) fun _ => .bind .inlineWs fun _ => .pure _

theorem identifier_strict {s r v : Str} (h : identifier U s = .ok r v) : r.length < s.length :=
  (ident_consumes (identifier_iff.1 h)).length

theorem Loc.block {b : Parser Body} (hb : Loc B n b) : Loc B (n + 1) (block U b) :=
  .bind .inlineWs fun _ => .bindStrict (.identifier U) (fun _ _ _ => identifier_strict) fun _ =>
  .bind .inlineWs fun _ => .bind .blockLabels fun _ =>
  .bind .inlineWs fun _ => .bind (.tag _) fun _ => .bind .inlineWs fun _ => .bind .newline fun _ =>
  .bind .inlineWs fun _ => .bind hb fun _ => .bind .inlineWs fun _ => .bind (.tag _) fun _ =>
  .bind .inlineWs fun _ => .pure _

theorem Loc.bodyStep {b : Parser Body} (hb : Loc (HeredocPanics U) n b) :
    Loc (HeredocPanics U) (n + 1) (bodyStep U b) :=
  .bind (.many0 (.bind .ws fun _ => .bind (.orElse (.mapP .attribute) (.orElse .oneLineBlock (.block hb))) fun _ =>
    .bind (.orElse (.mapP .newline) .eof) fun _ => .pure _)) fun _ => .bind .ws fun _ => .pure _

theorem Loc.bodyN : ∀ n : Nat, Loc (HeredocPanics U) n (bodyN U n) := by
  intro n
  induction n with
  | zero => exact ⟨fun _ _ _ h => (by cases h), fun _ h => (by cases h), fun s h => by omega⟩
  | succ n ih => exact .bodyStep ih

theorem Loc.body : Loc (HeredocPanics U) n (body U) where
  suf _ _ _ h := isBody_suffix (body_sound h)
  pan s h := (Loc.bodyN (s.length + 1)).pan s h
  div s _ h := (Loc.bodyN (s.length + 1)).div s (by omega) h

theorem configFile_bad {s : Str} : (configFile U s = .panic → body U s = .panic) ∧
    (configFile U s = .diverge → body U s = .diverge) := by
  unfold configFile exact
  constructor <;> intro h
  · rcases bind_eq_panic.1 h with h | ⟨r, v, _, h⟩
    · exact h
    · split at h <;> cases h
  · rcases bind_eq_diverge.1 h with h | ⟨r, v, _, h⟩
    · exact h
    · split at h <;> cases h

theorem parseStr_not_diverge (s : Str) : parseStr U s ≠ .diverge := by
  intro h
  unfold parseStr PRes.toRes at h
  split at h
  · dsimp only at h; split at h <;> cases h
  · cases h
  · cases h
  · cases h
  · exact (Loc.body (n := s.length + 1)).div s (by omega) (configFile_bad.2 ‹_›)

theorem parseStr_panic {s : Str} (h : parseStr U s = .panic) : ∃ u, u <:+ s ∧ HeredocPanics U u := by
  unfold parseStr PRes.toRes at h
  split at h
  · dsimp only at h; split at h <;> cases h
  · cases h
  · cases h
  · exact (Loc.body (n := 0)).pan s (configFile_bad.1 ‹_›)
  · cases h

theorem exprParse_not_diverge (s : Str) : Expr.parse U s ≠ .diverge := by
  intro h
  unfold Expr.parse PRes.toRes at h
  split at h
  · dsimp only at h; split at h <;> cases h
  · cases h
  · cases h
  · cases h
  · exact (Loc.expression (n := s.length + 1)).div s (by omega) ‹_›

theorem exprParse_panic {s : Str} (h : Expr.parse U s = .panic) : ∃ u, u <:+ s ∧ HeredocPanics U u := by
  unfold Expr.parse PRes.toRes at h
  split at h
  · dsimp only at h; split at h <;> cases h
  · cases h
  · cases h
  · exact (Loc.expression (n := 0)).pan s ‹_›
  · cases h

end
end Verif
