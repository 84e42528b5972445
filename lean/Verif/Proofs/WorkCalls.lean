import Verif.Proofs.OldWork
/-! # Every call is a step -/
set_option autoImplicit false

namespace Verif
open PRes Spec CParser

section
variable {α β : Type}

/-- `w` makes at least as many steps as `c` makes counted calls. -/
structure Pays (w c : CParser α) : Prop where
  run : w.run = c.run
  le : ∀ s, c.cost s ≤ w.cost s

theorem Pays.leaf (w : CParser α) : Pays w (lift w.run) := ⟨rfl, fun _ => Nat.zero_le _⟩

theorem Pays.pure (v : α) : Pays (Pure.pure v : CParser α) (Pure.pure v) := ⟨rfl, fun _ => Nat.le_refl _⟩

theorem Pays.bind {w c : CParser α} {f g : α → CParser β} (h : Pays w c) (h' : ∀ v, Pays (f v) (g v)) : Pays (w >>= f) (c >>= g) := by
  refine ⟨?_, fun s => ?_⟩
  · show (w.run >>= fun v => (f v).run) = (c.run >>= fun v => (g v).run)
    rw [h.run]; congr; funext v; exact (h' v).run
  · show c.cost s + _ ≤ w.cost s + _
    have h1 := h.le s
    rw [h.run]
    split
    · rename_i r v _
      have := (h' v).le r
      omega
    · omega

theorem Pays.orElse {p q c e : CParser α} (h : Pays p c) (h' : Pays q e) : Pays (p <///> q) (c <///> e) := by
  refine ⟨?_, fun s => ?_⟩
  · show (p.run <//> q.run) = (c.run <//> e.run)
    rw [h.run, h'.run]
  · show c.cost s + _ ≤ p.cost s + _
    have h1 := h.le s
    have h2 := h'.le s
    rw [h.run]
    split <;> omega

theorem Pays.map {g : α → β} {w c : CParser α} (h : Pays w c) : Pays (CParser.map g w) (CParser.map g c) :=
  ⟨congrArg (mapP g) h.run, h.le⟩

theorem Pays.opt {w c : CParser α} (h : Pays w c) : Pays (CParser.opt w) (CParser.opt c) := ⟨congrArg Verif.opt h.run, h.le⟩

theorem Pays.recognize {w c : CParser α} (h : Pays w c) : Pays (CParser.recognize w) (CParser.recognize c) :=
  ⟨congrArg Verif.recognize h.run, h.le⟩

theorem Pays.many0 {w c : CParser α} (h : Pays w c) : Pays (CParser.many0 w) (CParser.many0 c) := by
  refine ⟨congrArg Verif.many0 h.run, fun s => ?_⟩
  show many0Cost c (s.length + 1) s ≤ many0Cost w (s.length + 1) s
  generalize s.length + 1 = m
  induction m generalizing s with
  | zero => exact Nat.le_refl _
  | succ m ih =>
    rw [many0Cost, many0Cost, h.run]
    have h0 := h.le s
    split
    · rename_i r _ _
      split
      · have := ih r; omega
      · omega
    · omega

theorem Pays.separatedList {sep : CParser β} {w c : CParser α} (h : Pays w c) :
    Pays (separatedListW sep w) (CParser.separatedList sep.run c) := by
  refine ⟨congrArg (Verif.separatedList sep.run) h.run, fun s => ?_⟩
  have ht : ∀ (m : Nat) (s : Str), sepTailCost sep.run c m s ≤ sepTailWork sep w m s := by
    intro m
    induction m with
    | zero => intro s; exact Nat.le_refl _
    | succ m ih =>
      intro s
      rw [sepTailWork, sepTailCost, h.run]
      cases sep.run s with
      | ok r _ =>
        have h1 := h.le r
        dsimp only
        cases c.run r with
        | ok r' _ =>
          dsimp only
          refine Nat.le_trans (Nat.add_le_add h1 ?_) (Nat.le_add_left _ _)
          by_cases hl : r'.length < s.length
          · rw [if_pos hl, if_pos hl]; exact ih r'
          · rw [if_neg hl, if_neg hl]; exact Nat.le_refl _
        | _ => exact Nat.le_trans (Nat.add_le_add h1 (Nat.le_refl 0)) (Nat.le_add_left _ _)
      | _ => exact Nat.zero_le _
  have h0 := h.le s
  show c.cost s + _ ≤ w.cost s + _
  rw [h.run]
  cases c.run s with
  | ok r _ =>
    refine Nat.add_le_add h0 ?_
    dsimp only
    by_cases hl : r.length < s.length
    · rw [if_pos hl, if_pos hl]; exact ht (r.length + 1) r
    · rw [if_neg hl, if_neg hl]; exact Nat.le_refl _
  | _ => exact Nat.add_le_add h0 (Nat.le_refl 0)

theorem Pays.call {w c : CParser α} (h : Pays w c) : Pays (CParser.call w) (CParser.call c) :=
  ⟨h.run, fun s => Nat.add_le_add_left (h.le s) 1⟩

theorem Pays.wsAround {w c : CParser α} (h : Pays w c) : Pays (wsAroundW w) (wsAroundC c) :=
  (Pays.leaf _).bind fun _ => h.bind fun _ => (Pays.leaf _).bind fun _ => .pure _

end

section
variable {U : CharClass} {P : F64Parse}

theorem pays_expr (U : CharClass) : ∀ k, Pays (exprW U k) (exprC U k)
  | 0 => ⟨rfl, fun _ => Nat.le_refl _⟩
  | k + 1 =>
    have h := pays_expr U k
    have ht : Pays (tupleW (exprW U k)) (tupleC (exprC U k)) := (Pays.leaf _).bind fun _ =>
      (Pays.separatedList (sep := tupleSepW) ((Pays.leaf wsW).bind fun _ => h)).bind fun _ => (Pays.leaf tupleEndW).bind fun _ => .pure _
    have ho : Pays (objectW U (exprW U k)) (objectC U (exprC U k)) := (Pays.leaf (wsAroundW (tagW ['{']))).bind fun _ =>
      (Pays.wsAround (((Pays.leaf wsW).bind fun _ => ((Pays.leaf inlineWsW).bind fun _ =>
        ((Pays.leaf (CParser.map _ (identifierW U))).orElse h.recognize.map).bind fun _ => (Pays.leaf inlineWsW).bind fun _ =>
        (Pays.leaf (tagW ['='])).bind fun _ => (Pays.leaf inlineWsW).bind fun _ => h.bind fun _ => (Pays.leaf inlineWsW).bind fun _ =>
        .pure _).bind fun _ => (Pays.leaf objectSeparatorW).bind fun _ => .pure _).many0.bind fun _ =>
        (Pays.leaf wsW).bind fun _ => .pure _)).bind fun _ => (Pays.leaf (tagW ['}'])).bind fun _ => .pure _
    have hb : Pays (bracketExpressionW (exprW U k)) (bracketExpressionC (exprC U k)) :=
      (Pays.leaf (wsAroundW (tagW ['(']))).bind fun _ => h.wsAround.bind fun _ => (Pays.leaf (tagW [')'])).bind fun _ => .pure _
    Pays.call ((Pays.leaf (CParser.map _ nullW)).orElse <| (Pays.leaf (CParser.map _ numberW)).orElse <|
      (Pays.leaf (CParser.map _ booleanW)).orElse <| (Pays.leaf (CParser.map _ (stringW U))).orElse <|
      ht.map.orElse <| ho.map.orElse hb)

theorem Pays.expression (U : CharClass) : Pays (expressionW U) (expressionC U) := ⟨rfl, fun s => (pays_expr U (s.length + 1)).le s⟩

theorem Pays.attribute (U : CharClass) : Pays (attributeW U) (attributeC U) :=
  (Pays.leaf inlineWsW).bind fun _ => (Pays.leaf (identifierW U)).bind fun _ => (Pays.leaf inlineWsW).bind fun _ =>
    (Pays.leaf (tagW ['='])).bind fun _ => (Pays.leaf inlineWsW).bind fun _ => (Pays.expression U).bind fun _ =>
    (Pays.leaf inlineWsW).bind fun _ => .pure _

theorem pays_body (U : CharClass) : ∀ k, Pays (bodyW U k) (bodyC U k)
  | 0 => ⟨rfl, fun _ => Nat.le_refl _⟩
  | k + 1 =>
    have h := pays_body U k
    have ho : Pays (oneLineBlockW U) (oneLineBlockC U) := (Pays.leaf inlineWsW).bind fun _ => (Pays.leaf (identifierW U)).bind fun _ =>
      (Pays.leaf inlineWsW).bind fun _ => (Pays.leaf (blockLabelsW U)).bind fun _ => (Pays.leaf inlineWsW).bind fun _ =>
      (Pays.leaf (tagW ['{'])).bind fun _ => (Pays.leaf inlineWsW).bind fun _ => (Pays.attribute U).opt.bind fun _ =>
      (Pays.leaf inlineWsW).bind fun _ => (Pays.leaf (tagW ['}'])).bind fun _ => (Pays.leaf inlineWsW).bind fun _ => .pure _
    have hb : Pays (blockW U (bodyW U k)) (blockC U (bodyC U k)) := (Pays.leaf inlineWsW).bind fun _ =>
      (Pays.leaf (identifierW U)).bind fun _ => (Pays.leaf inlineWsW).bind fun _ => (Pays.leaf (blockLabelsW U)).bind fun _ =>
      (Pays.leaf inlineWsW).bind fun _ => (Pays.leaf (tagW ['{'])).bind fun _ => (Pays.leaf inlineWsW).bind fun _ =>
      (Pays.leaf newlineW).bind fun _ => (Pays.leaf inlineWsW).bind fun _ => h.bind fun _ => (Pays.leaf inlineWsW).bind fun _ =>
      (Pays.leaf (tagW ['}'])).bind fun _ => (Pays.leaf inlineWsW).bind fun _ => .pure _
    Pays.call (((Pays.leaf wsW).bind fun _ => ((Pays.attribute U).map.orElse (ho.orElse hb)).bind fun _ =>
      (Pays.leaf (CParser.map (fun _ => ()) newlineW <///> eofW)).bind fun _ => .pure _).many0.bind fun _ =>
      (Pays.leaf wsW).bind fun _ => .pure _)

theorem Pays.mapExpression {m m' : CParser MapValues} (h : Pays m m') : Pays (mapExpressionW m) (mapExpressionC m') :=
  (Pays.leaf (wsAroundW (tagW ['{']))).bind fun _ => h.wsAround.bind fun _ => (Pays.leaf (tagW ['}'])).bind fun _ => .pure _

theorem pays_old (U : CharClass) (P : F64Parse) : ∀ k, Pays (oldW U P k).1 (oldC U P k).1 ∧ Pays (oldW U P k).2 (oldC U P k).2
  | 0 => ⟨⟨rfl, fun _ => Nat.le_refl _⟩, ⟨rfl, fun _ => Nat.le_refl _⟩⟩
  | k + 1 =>
    have h := pays_old U P k
    have hl : Pays (listW (oldW U P k).1) (listC (oldC U P k).1) := (Pays.leaf (tagW ['['])).bind fun _ =>
      (Pays.separatedList (sep := tupleSepW) ((Pays.leaf wsW).bind fun _ => h.1)).bind fun _ => (Pays.leaf tupleEndW).bind fun _ => .pure _
    have ha : Pays (oldAttributeW U (oldW U P k).1 (oldW U P k).2) (oldAttributeC U (oldC U P k).1 (oldC U P k).2) :=
      (Pays.orElse ((Pays.leaf inlineWsW).bind fun _ => (Pays.leaf (oldKeyW U)).bind fun _ => (Pays.leaf inlineWsW).bind fun _ =>
          (Pays.leaf (tagW ['='])).bind fun _ => (Pays.leaf inlineWsW).bind fun _ => h.1.bind fun _ => .pure _)
        (Pays.orElse ((Pays.leaf inlineWsW).bind fun _ => (Pays.leaf (identifierW U)).bind fun _ => (Pays.leaf inlineWsW).bind fun _ =>
            (Pays.leaf (CParser.opt (tagW ['=']))).bind fun _ => (Pays.leaf inlineWsW).bind fun _ => h.2.mapExpression.bind fun _ => .pure _)
          ((Pays.leaf inlineWsW).bind fun _ => (Pays.leaf (identifierW U)).bind fun _ =>
            (Pays.leaf (CParser.many0 (do let _ ← inlineWsW; stringLiteralW))).bind fun _ => (Pays.leaf inlineWsW).bind fun _ =>
            h.2.mapExpression.bind fun _ => .pure _))).bind fun _ => (Pays.leaf inlineWsW).bind fun _ => .pure _
    ⟨Pays.call ((Pays.leaf (CParser.map _ nullW)).orElse <| (Pays.leaf (oldNumberW P)).orElse <|
        (Pays.leaf (CParser.map _ booleanW)).orElse <| (Pays.leaf (CParser.map _ (stringW U))).orElse <|
        hl.map.orElse h.2.mapExpression.map),
      Pays.call (((Pays.leaf wsW).bind fun _ => ha.bind fun _ => (Pays.leaf attributeEndW).bind fun _ => .pure _).many0.bind fun _ =>
        (Pays.leaf wsW).bind fun _ => .pure _)⟩

end
end Verif
