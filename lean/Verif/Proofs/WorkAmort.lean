import Verif.Proofs.WorkLeaf
/-! # Steps against calls of the recursive parsers -/
set_option autoImplicit false

namespace Verif
open PRes Spec CParser

section
variable {α β : Type}

/-- On inputs of length at most `n`, the steps of `w` are at most `b` for each counted call of `c`, and `k (n + 1) ^ d` more. -/
structure Amort (n b d k : Nat) (w c : CParser α) : Prop where
  run : w.run = c.run
  shrink : Shrinks c.run
  le : ∀ s, s.length ≤ n → w.cost s ≤ k * (n + 1) ^ d + b * c.cost s

variable {n b d : Nat}

theorem Amort.mono {k k' : Nat} {w c : CParser α} (h : Amort n b d k w c) (hk : k ≤ k') : Amort n b d k' w c :=
  ⟨h.run, h.shrink, fun s hs => Nat.le_trans (h.le s hs) (Nat.add_le_add_right (Nat.mul_le_mul_right _ hk) _)⟩

theorem Amort.leaf {k : Nat} {w : CParser α} (h : Poly d k w) : Amort n b d k w (lift w.run) :=
  ⟨rfl, h.shrink, fun s hs => Nat.le_trans ((h n).le s hs) (Nat.le_add_right _ _)⟩

theorem Amort.pure (v : α) : Amort n b d 0 (Pure.pure v : CParser α) (Pure.pure v) :=
  ⟨rfl, Shrinks.pure v, fun _ _ => Nat.zero_le _⟩

theorem Amort.bind {j k : Nat} {w c : CParser α} {f g : α → CParser β} (h : Amort n b d j w c)
    (h' : ∀ v, Amort n b d k (f v) (g v)) : Amort n b d (j + k) (w >>= f) (c >>= g) := by
  refine ⟨?_, h.shrink.bind fun v => (h' v).shrink, fun s hs => ?_⟩
  · show (w.run >>= fun v => (f v).run) = (c.run >>= fun v => (g v).run)
    rw [h.run]; congr; funext v; exact (h' v).run
  · show w.cost s + _ ≤ _ + b * (c.cost s + _)
    have h1 := h.le s hs
    rw [h.run, Nat.add_mul, Nat.mul_add]
    split
    · rename_i r v hr
      have := (h' v).le r (Nat.le_trans (h.shrink _ _ _ hr) hs)
      omega
    · omega

theorem Amort.orElse {j k : Nat} {p q c e : CParser α} (h : Amort n b d j p c) (h' : Amort n b d k q e) :
    Amort n b d (j + k) (p <///> q) (c <///> e) := by
  refine ⟨?_, h.shrink.orElse h'.shrink, fun s hs => ?_⟩
  · show (p.run <//> q.run) = (c.run <//> e.run)
    rw [h.run, h'.run]
  · show p.cost s + _ ≤ _ + b * (c.cost s + _)
    have h1 := h.le s hs
    have h2 := h'.le s hs
    rw [h.run, Nat.add_mul, Nat.mul_add]
    split <;> omega

theorem Amort.map {k : Nat} {g : α → β} {w c : CParser α} (h : Amort n b d k w c) :
    Amort n b d k (CParser.map g w) (CParser.map g c) :=
  ⟨congrArg (mapP g) h.run, h.shrink.map, h.le⟩

theorem Amort.opt {k : Nat} {w c : CParser α} (h : Amort n b d k w c) : Amort n b d k (CParser.opt w) (CParser.opt c) :=
  ⟨congrArg Verif.opt h.run, h.shrink.opt, h.le⟩

theorem Shrinks.recognize {p : Parser α} (h : Shrinks p) : Shrinks (Verif.recognize p) := by
  intro s r v hr
  obtain ⟨t, w, h1, h2⟩ := bind_eq_ok.1 (show (p s).bind _ = .ok r v from hr)
  injection h2 with h3 _; subst h3
  exact h _ _ _ h1

theorem Amort.recognize {k : Nat} {w c : CParser α} (h : Amort n b d k w c) :
    Amort n b d k (CParser.recognize w) (CParser.recognize c) :=
  ⟨congrArg Verif.recognize h.run, h.shrink.recognize, h.le⟩

private theorem many0Cost_amort {k : Nat} {w c : CParser α} (h : Amort n b d k w c) : ∀ (m : Nat) (s : Str), s.length ≤ n →
    many0Cost w m s ≤ m * (k * (n + 1) ^ d) + b * many0Cost c m s := by
  intro m
  induction m with
  | zero => intro s _; exact Nat.zero_le _
  | succ m ih =>
    intro s hs
    rw [many0Cost, many0Cost, h.run, Nat.succ_mul, Nat.mul_add]
    have h0 := h.le s hs
    split
    · rename_i r v hr
      split
      · have := ih r (Nat.le_trans (h.shrink _ _ _ hr) hs)
        omega
      · omega
    · omega

private theorem succ_pow_le {m k : Nat} (hm : m ≤ n + 1) : m * (k * (n + 1) ^ d) ≤ k * (n + 1) ^ (d + 1) := by
  rw [Nat.pow_succ, Nat.mul_comm ((n + 1) ^ d), Nat.mul_left_comm k]
  exact Nat.mul_le_mul_right _ hm

theorem Amort.many0 {k : Nat} {w c : CParser α} (h : Amort n b d k w c) :
    Amort n b (d + 1) k (CParser.many0 w) (CParser.many0 c) := by
  refine ⟨congrArg Verif.many0 h.run, h.shrink.many0, fun s hs => ?_⟩
  refine Nat.le_trans (many0Cost_amort h (s.length + 1) s hs) ?_
  exact Nat.add_le_add_right (succ_pow_le (by omega)) _

private theorem sepTail_amort {j k : Nat} {sep : CParser β} {w c : CParser α} (hsep : Poly d j sep) (h : Amort n b d k w c) :
    ∀ (m : Nat) (s : Str), s.length ≤ n →
      sepTailWork sep w m s ≤ m * ((j + k) * (n + 1) ^ d) + b * sepTailCost sep.run c m s := by
  intro m
  induction m with
  | zero => intro s _; exact Nat.zero_le _
  | succ m ih =>
    intro s hs
    rw [sepTailWork, sepTailCost, h.run, Nat.succ_mul]
    have hA : (j + k) * (n + 1) ^ d = j * (n + 1) ^ d + k * (n + 1) ^ d := Nat.add_mul ..
    generalize (j + k) * (n + 1) ^ d = A at hA ih ⊢
    have h0 := (hsep n).le s hs
    cases hr : sep.run s with
    | ok r v =>
      have hl := Nat.le_trans (hsep.shrink _ _ _ hr) hs
      have h1 := h.le r hl
      show sep.cost s + (w.cost r + match c.run r with
          | .ok r' _ => if r'.length < s.length then sepTailWork sep w m r' else 0
          | _ => 0) ≤ m * A + A + b * (c.cost r + match c.run r with
          | .ok r' _ => if r'.length < s.length then sepTailCost sep.run c m r' else 0
          | _ => 0)
      cases hr' : c.run r with
      | ok r' v' =>
        show sep.cost s + (w.cost r + if r'.length < s.length then sepTailWork sep w m r' else 0) ≤
          m * A + A + b * (c.cost r + if r'.length < s.length then sepTailCost sep.run c m r' else 0)
        rw [Nat.mul_add]
        by_cases hlt : r'.length < s.length
        · rw [if_pos hlt, if_pos hlt]
          have := ih r' (Nat.le_trans (h.shrink _ _ _ hr') hl)
          omega
        · rw [if_neg hlt, if_neg hlt]
          omega
      | _ =>
        show sep.cost s + (w.cost r + 0) ≤ m * A + A + b * (c.cost r + 0)
        rw [Nat.mul_add]; omega
    | _ => show sep.cost s + 0 ≤ m * A + A + b * 0; omega

private theorem sepTail_shrinks {sep : Parser β} {p : Parser α} (hs : Shrinks sep) (hp : Shrinks p) : ∀ m,
    Shrinks (sepTailAux sep p m) := by
  intro m
  induction m with
  | zero => intro s r v h; cases h
  | succ m ih =>
    intro s r v h
    unfold sepTailAux at h
    split at h
    · injection h with h1 _; subst h1; exact Nat.le_refl _
    · cases h
    · cases h
    · cases h
    · split at h
      · injection h with h1 _; subst h1; exact Nat.le_refl _
      · cases h
      · cases h
      · cases h
      · split at h
        · obtain ⟨_, h1, -⟩ := map_eq_ok.1 h
          have := ih _ _ _ h1
          omega
        · cases h

theorem separatedList_shrinks {sep : Parser β} {p : Parser α} (hs : Shrinks sep) (hp : Shrinks p) :
    Shrinks (Verif.separatedList sep p) := by
  intro s r v h
  unfold Verif.separatedList at h
  split at h
  · injection h with h1 _; subst h1; exact Nat.le_refl _
  all_goals first
    | (cases h; done)
    | (split at h
       · obtain ⟨_, h1, -⟩ := map_eq_ok.1 h
         have := sepTail_shrinks hs hp _ _ _ _ h1
         omega
       · cases h)

theorem Amort.separatedList {j k : Nat} {sep : CParser β} {w c : CParser α} (hsep : Poly d j sep) (h : Amort n b d k w c) :
    Amort n b (d + 1) (j + 2 * k) (separatedListW sep w) (CParser.separatedList sep.run c) := by
  refine ⟨congrArg (Verif.separatedList sep.run) h.run, separatedList_shrinks hsep.shrink h.shrink, fun s hs => ?_⟩
  show w.cost s + _ ≤ _ + b * (c.cost s + _)
  have h0 := h.le s hs
  have e1 : k * (n + 1) ^ d ≤ k * (n + 1) ^ (d + 1) :=
    Nat.mul_le_mul_left _ (Nat.pow_le_pow_right (Nat.succ_pos n) (Nat.le_succ d))
  have e2 : (j + 2 * k) * (n + 1) ^ (d + 1) = k * (n + 1) ^ (d + 1) + (j + k) * (n + 1) ^ (d + 1) := by
    rw [← Nat.add_mul]; congr 1; omega
  rw [h.run, e2]
  cases hr : c.run s with
  | ok r v =>
    show w.cost s + (if r.length < s.length then sepTailWork sep w (r.length + 1) r else 0) ≤
      _ + b * (c.cost s + if r.length < s.length then sepTailCost sep.run c (r.length + 1) r else 0)
    rw [Nat.mul_add]
    by_cases hl : r.length < s.length
    · rw [if_pos hl, if_pos hl]
      have h1 := sepTail_amort hsep h (r.length + 1) r (by omega)
      have h2 : (r.length + 1) * ((j + k) * (n + 1) ^ d) ≤ _ := succ_pow_le (n := n) (d := d) (k := j + k) (by omega)
      omega
    · rw [if_neg hl, if_neg hl]; omega
  | _ =>
    show w.cost s + 0 ≤ _ + b * (c.cost s + 0)
    rw [Nat.mul_add]
    omega

/-- a counted call pays for what it does itself -/
theorem Amort.call {d' k : Nat} {w c : CParser α} (h : Amort n b d k w c) (hb : k * (n + 1) ^ d + 1 ≤ b) :
    Amort n b d' 0 (CParser.call w) (CParser.call c) :=
  ⟨h.run, h.shrink, fun s hs => by
    show 1 + w.cost s ≤ 0 * _ + b * (1 + c.cost s)
    have := h.le s hs
    rw [Nat.zero_mul, Nat.mul_add]
    omega⟩

theorem Amort.wsAround (hd : 1 ≤ d) {k : Nat} {w c : CParser α} (h : Amort n b d k w c) :
    Amort n b d (240 + k) (wsAroundW w) (wsAroundC c) :=
  ((Amort.leaf (ws_poly.up hd)).bind fun _ => h.bind fun _ => (Amort.leaf (ws_poly.up hd)).bind fun _ => .pure _).mono (by omega)

end

/-! ## expressions -/

section
variable {n b : Nat} {e e' : CParser Expr} {U : CharClass}

theorem tupleSep_poly : Poly 1 130 tupleSepW := (ws_poly.bind fun _ => .tag _).mono (by decide)
theorem tupleEnd_poly {d : Nat} (hd : 1 ≤ d) : Poly d 400 tupleEndW :=
  ((ws_poly.up hd).bind fun _ => ((Poly.tag _).opt.wsAround hd).bind fun _ => (Poly.tag _).bind fun _ => .pure _).mono
    (by simp)

theorem Amort.up {α : Type} {d d' k : Nat} {w c : CParser α} (h : Amort n b d k w c) (hd : d ≤ d') : Amort n b d' k w c :=
  ⟨h.run, h.shrink, fun s hs => Nat.le_trans (h.le s hs)
    (Nat.add_le_add_right (Nat.mul_le_mul_left _ (Nat.pow_le_pow_right (Nat.succ_pos n) hd)) _)⟩

theorem Amort.tuple (h : Amort n b 1 0 e e') : Amort n b 2 800 (tupleW e) (tupleC e') :=
  ((Amort.leaf (.tag _)).bind fun _ =>
    (Amort.separatedList tupleSep_poly ((Amort.leaf ws_poly).bind fun _ => h)).bind fun _ =>
      (Amort.leaf (tupleEnd_poly (by decide))).bind fun _ => .pure _).mono (by decide)

theorem objectSeparator_poly : Poly 1 260 objectSeparatorW :=
  ((Poly.tag _).map.orElse (newline_poly.map.orElse (Poly.tag _).peek.map)).mono (by decide)

theorem Amort.objectItem (h : Amort n b 1 0 e e') : Amort n b 1 700 (objectItemW U e) (objectItemC U e') :=
  ((Amort.leaf ws_poly).bind fun _ =>
    ((Amort.leaf inlineWs_poly).bind fun _ =>
      ((Amort.leaf (identifier_poly U).map).orElse h.recognize.map).bind fun _ =>
      (Amort.leaf inlineWs_poly).bind fun _ => (Amort.leaf (.tag _)).bind fun _ => (Amort.leaf inlineWs_poly).bind fun _ =>
      h.bind fun _ => (Amort.leaf inlineWs_poly).bind fun _ => .pure _).bind fun _ =>
    (Amort.leaf objectSeparator_poly).bind fun _ => .pure _).mono (by decide)

theorem Amort.object (h : Amort n b 1 0 e e') : Amort n b 2 1500 (objectW U e) (objectC U e') :=
  ((Amort.leaf ((Poly.tag _).wsAround (by decide))).bind fun _ =>
    (Amort.wsAround (by decide) (h.objectItem.many0.bind fun _ => (Amort.leaf (ws_poly.up (by decide))).bind fun _ => .pure _)).bind fun _ =>
    (Amort.leaf (.tag _)).bind fun _ => .pure _).mono (by decide)

theorem Amort.bracket (h : Amort n b 1 0 e e') : Amort n b 1 600 (bracketExpressionW e) (bracketExpressionC e') :=
  ((Amort.leaf ((Poly.tag _).wsAround (by decide))).bind fun _ => (h.wsAround (by decide)).bind fun _ =>
    (Amort.leaf (.tag _)).bind fun _ => .pure _).mono (by decide)

theorem Amort.exprStep (h : Amort n b 1 0 e e') : Amort n b 2 4000 (exprStepW U e) (exprStepC U e') :=
  ((Amort.leaf (null_poly.map.up (by decide))).orElse <| (Amort.leaf (number_poly.map.up (by decide))).orElse <|
    (Amort.leaf (boolean_poly.map.up (by decide))).orElse <| (Amort.leaf (string_poly U).map).orElse <|
    h.tuple.map.orElse <| h.object.map.orElse <| h.bracket.up (by decide)).mono (by decide)

theorem amort_expr (U : CharClass) (hb : 4000 * (n + 1) ^ 2 + 1 ≤ b) : ∀ k, Amort n b 1 0 (exprW U k) (exprC U k)
  | 0 => ⟨rfl, (fun s r v h => by cases h), fun s _ => by
      show 1 + 0 ≤ _ + b * (1 + 0)
      omega⟩
  | k + 1 => (amort_expr U hb k).exprStep.call hb

theorem expr_steps_le (U : CharClass) (s : Str) :
    (exprW U (s.length + 1)).cost s ≤ (4000 * (s.length + 1) ^ 2 + 1) * exprParseCalls U s := by
  have := (amort_expr U (Nat.le_refl _) (s.length + 1)).le s (Nat.le_refl _)
  rw [Nat.zero_mul, Nat.zero_add] at this
  exact this

/-! ## bodies -/

theorem Amort.expression {d : Nat} (hb : 4000 * (n + 1) ^ 2 + 1 ≤ b) : Amort n b d 0 (expressionW U) (expressionC U) :=
  ⟨rfl, fun s r v h => Nat.le_of_lt (isExpr_consumes (expressionC_sound h)).length, fun s hs => by
    have := (amort_expr U hb (s.length + 1)).le s hs
    rw [Nat.zero_mul] at this ⊢
    exact this⟩

theorem Amort.attribute (hb : 4000 * (n + 1) ^ 2 + 1 ≤ b) : Amort n b 1 300 (attributeW U) (attributeC U) :=
  ((Amort.leaf inlineWs_poly).bind fun _ => (Amort.leaf (identifier_poly U)).bind fun _ => (Amort.leaf inlineWs_poly).bind fun _ =>
    (Amort.leaf (.tag _)).bind fun _ => (Amort.leaf inlineWs_poly).bind fun _ => (Amort.expression hb).bind fun _ =>
    (Amort.leaf inlineWs_poly).bind fun _ => .pure _).mono (by decide)

theorem Amort.oneLineBlock (hb : 4000 * (n + 1) ^ 2 + 1 ≤ b) : Amort n b 2 1000 (oneLineBlockW U) (oneLineBlockC U) :=
  have iw {d : Nat} (hd : 1 ≤ d) : Poly d 50 inlineWsW := inlineWs_poly.up hd
  ((Amort.leaf (iw (by decide))).bind fun _ => (Amort.leaf ((identifier_poly U).up (by decide))).bind fun _ =>
    (Amort.leaf (iw (by decide))).bind fun _ => (Amort.leaf (blockLabels_poly U)).bind fun _ =>
    (Amort.leaf (iw (by decide))).bind fun _ => (Amort.leaf (.tag _)).bind fun _ => (Amort.leaf (iw (by decide))).bind fun _ =>
    ((Amort.attribute hb).up (by decide)).opt.bind fun _ => (Amort.leaf (iw (by decide))).bind fun _ =>
    (Amort.leaf (.tag _)).bind fun _ => (Amort.leaf (iw (by decide))).bind fun _ => .pure _).mono (by decide)

theorem Amort.block {w c : CParser Body} (h : Amort n b 2 0 w c) : Amort n b 2 1000 (blockW U w) (blockC U c) :=
  have iw {d : Nat} (hd : 1 ≤ d) : Poly d 50 inlineWsW := inlineWs_poly.up hd
  ((Amort.leaf (iw (by decide))).bind fun _ => (Amort.leaf ((identifier_poly U).up (by decide))).bind fun _ =>
    (Amort.leaf (iw (by decide))).bind fun _ => (Amort.leaf (blockLabels_poly U)).bind fun _ =>
    (Amort.leaf (iw (by decide))).bind fun _ => (Amort.leaf (.tag _)).bind fun _ => (Amort.leaf (iw (by decide))).bind fun _ =>
    (Amort.leaf (newline_poly.up (by decide))).bind fun _ => (Amort.leaf (iw (by decide))).bind fun _ =>
    h.bind fun _ => (Amort.leaf (iw (by decide))).bind fun _ =>
    (Amort.leaf (.tag _)).bind fun _ => (Amort.leaf (iw (by decide))).bind fun _ => .pure _).mono (by decide)

theorem Amort.bodyStep {w c : CParser Body} (hb : 4000 * (n + 1) ^ 2 + 1 ≤ b) (h : Amort n b 2 0 w c) :
    Amort n b 3 4000 (bodyStepW U w) (bodyStepC U c) :=
  ((Amort.many0 ((Amort.leaf (ws_poly.up (by decide))).bind fun _ =>
      ((((Amort.attribute hb).up (by decide)).map).orElse ((Amort.oneLineBlock hb).orElse h.block)).bind fun _ =>
      (Amort.leaf ((newline_poly.up (by decide)).map.orElse .eof)).bind fun _ => .pure _)).bind fun _ =>
    (Amort.leaf (ws_poly.up (by decide))).bind fun _ => .pure _).mono (by decide)

theorem amort_body (U : CharClass) (hb : 4000 * (n + 1) ^ 3 + 1 ≤ b) : ∀ k, Amort n b 2 0 (bodyW U k) (bodyC U k)
  | 0 => ⟨rfl, (fun s r v h => by cases h), fun s _ => by
      show 1 + 0 ≤ _ + b * (1 + 0)
      omega⟩
  | k + 1 =>
    have h2 : (n + 1) ^ 2 ≤ (n + 1) ^ 3 := Nat.pow_le_pow_right (Nat.succ_pos n) (by decide)
    (Amort.bodyStep (by omega) (amort_body U hb k)).call hb

theorem body_steps_le (U : CharClass) (s : Str) :
    (bodyW U (s.length + 1)).cost s ≤ (4000 * (s.length + 1) ^ 3 + 1) * parseStrCalls U s := by
  have := (amort_body U (Nat.le_refl _) (s.length + 1)).le s (Nat.le_refl _)
  rw [Nat.zero_mul, Nat.zero_add] at this
  exact this

/-! ## the parsers are the same -/

theorem exprW_run (U : CharClass) (k : Nat) : (exprW U k).run = exprN U k :=
  (amort_expr (n := 0) U (Nat.le_refl _) k).run.trans (exprC_run U k)

theorem bodyW_run (U : CharClass) (k : Nat) : (bodyW U k).run = bodyN U k :=
  (amort_body (n := 0) U (Nat.le_refl _) k).run.trans (bodyC_run U k)

end
end Verif
