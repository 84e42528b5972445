import Verif.Proofs.WorkLower
import Verif.Proofs.OldCalls
import Verif.Model.OldWork
/-! # Steps of the legacy parser -/
set_option autoImplicit false

namespace Verif
open PRes Spec CParser

section
variable {n b : Nat} {U : CharClass} {P : F64Parse} {v v' : CParser Value} {m m' : CParser MapValues}

theorem Poly.recognize {α : Type} {d k : Nat} {p : CParser α} (hp : Poly d k p) : Poly d k (CParser.recognize p) := fun n =>
  ⟨(hp n).shrink.recognize, (hp n).le⟩

theorem recognizeFloat_poly : Poly 1 50 recognizeFloatW :=
  (Poly.recognize (((Poly.tag _).orElse (Poly.tag _)).opt.bind fun _ =>
    ((digit_poly.bind fun _ => ((Poly.tag _).bind fun _ => digit_poly.opt).opt.bind fun _ => .pure _).orElse
      ((Poly.tag _).bind fun _ => digit_poly.bind fun _ => .pure _)).bind fun _ =>
    (((Poly.tag _).orElse (Poly.tag _)).bind fun _ => ((Poly.tag _).orElse (Poly.tag _)).opt.bind fun _ => digit_poly).opt)).mono (by decide)

theorem recognizeFloat_length {s r t : Str} (h : recognizeFloat s = .ok r t) : t.length ≤ s.length := by
  obtain ⟨r', x, -, h2⟩ := bind_eq_ok.1 h
  injection h2 with _ h2
  rw [← h2, List.length_take]
  omega

theorem oldNumber_poly (P : F64Parse) : Poly 1 60 (oldNumberW P) := fun n => by
  refine ⟨?_, fun s hs => ?_⟩
  · exact (((recognizeFloat_poly n).mapRes (k := 0) (g := numberValue P)).shrink)
  · have h1 := (recognizeFloat_poly n).le s hs
    have h2 : (oldNumberW P).cost s = recognizeFloatW.cost s + match recognizeFloat s with
      | .ok _ t => 2 * (t.length + 1)
      | _ => 0 := rfl
    rw [Nat.pow_one] at *
    cases hr : recognizeFloat s with
    | ok r t =>
      have := recognizeFloat_length hr
      have h3 : (oldNumberW P).cost s = recognizeFloatW.cost s + 2 * (t.length + 1) := by rw [h2, hr]
      have h4 := Nat.mul_le_mul_left 2 (Nat.succ_le_succ (Nat.le_trans this hs))
      show _ ≤ 60 * (n + 1)
      generalize recognizeFloatW.cost s = a at *
      generalize (oldNumberW P).cost s = b at *
      omega
    | _ => rw [hr] at h2; dsimp only at h2; omega

theorem oldKey_poly (U : CharClass) : Poly 1 130 (oldKeyW U) :=
  ((identifier_poly U).map.orElse stringLiteral_poly.map).mono (by decide)

theorem Amort.list (h : Amort n b 1 0 v v') : Amort n b 2 800 (listW v) (listC v') :=
  ((Amort.leaf (.tag _)).bind fun _ =>
    (Amort.separatedList tupleSep_poly ((Amort.leaf ws_poly).bind fun _ => h)).bind fun _ =>
      (Amort.leaf (tupleEnd_poly (by decide))).bind fun _ => .pure _).mono (by decide)

theorem Amort.mapExpression {d : Nat} (hd : 1 ≤ d) (h : Amort n b d 0 m m') : Amort n b d 600 (mapExpressionW m) (mapExpressionC m') :=
  ((Amort.leaf ((Poly.tag _).wsAround hd)).bind fun _ => (h.wsAround hd).bind fun _ =>
    (Amort.leaf (.tag _)).bind fun _ => .pure _).mono (by simp)

theorem Amort.valueStep (hv : Amort n b 1 0 v v') (hm : Amort n b 2 0 m m') :
    Amort n b 2 4000 (valueStepW U P v m) (valueStepC U P v' m') :=
  ((Amort.leaf (null_poly.map.up (by decide))).orElse <| (Amort.leaf ((oldNumber_poly P).up (by decide))).orElse <|
    (Amort.leaf (boolean_poly.map.up (by decide))).orElse <| (Amort.leaf (string_poly U).map).orElse <|
    hv.list.map.orElse <| (hm.mapExpression (by decide)).map).mono (by decide)

theorem Amort.oldAttribute (hv : Amort n b 2 0 v v') (hm : Amort n b 2 0 m m') :
    Amort n b 2 2500 (oldAttributeW U v m) (oldAttributeC U v' m') :=
  have iw : Poly 2 50 inlineWsW := inlineWs_poly.up (by decide)
  ((((Amort.leaf iw).bind fun _ => (Amort.leaf ((oldKey_poly U).up (by decide))).bind fun _ => (Amort.leaf iw).bind fun _ =>
      (Amort.leaf (.tag _)).bind fun _ => (Amort.leaf iw).bind fun _ => hv.bind fun _ => .pure _).orElse
    (((Amort.leaf iw).bind fun _ => (Amort.leaf ((identifier_poly U).up (by decide))).bind fun _ => (Amort.leaf iw).bind fun _ =>
      (Amort.leaf (Poly.tag _).opt).bind fun _ => (Amort.leaf iw).bind fun _ => (hm.mapExpression (by decide)).bind fun _ => .pure _).orElse
    ((Amort.leaf iw).bind fun _ => (Amort.leaf ((identifier_poly U).up (by decide))).bind fun _ =>
      (Amort.leaf ((inlineWs_poly.bind fun _ => stringLiteral_poly).many0)).bind fun _ => (Amort.leaf iw).bind fun _ =>
      (hm.mapExpression (by decide)).bind fun _ => .pure _))).bind fun _ =>
    (Amort.leaf iw).bind fun _ => .pure _).mono (by decide)

theorem attributeEnd_poly : Poly 2 600 attributeEndW :=
  ((((Poly.tag _).wsAround (by decide)).map).orElse ((newline_poly.map.up (by decide)).orElse .eof)).mono (by decide)

theorem Amort.mapStep (hv : Amort n b 2 0 v v') (hm : Amort n b 2 0 m m') :
    Amort n b 3 4000 (mapStepW U v m) (mapStepC U v' m') :=
  ((Amort.many0 ((Amort.leaf (ws_poly.up (by decide))).bind fun _ => (Amort.oldAttribute hv hm).bind fun _ =>
      (Amort.leaf attributeEnd_poly).bind fun _ => .pure _)).bind fun _ =>
    (Amort.leaf (ws_poly.up (by decide))).bind fun _ => .pure _).mono (by decide)

theorem amort_old (U : CharClass) (P : F64Parse) (hb : 4000 * (n + 1) ^ 3 + 1 ≤ b) : ∀ k,
    (∀ d, Amort n b d 0 (oldW U P k).1 (oldC U P k).1) ∧ ∀ d, Amort n b d 0 (oldW U P k).2 (oldC U P k).2
  | 0 => ⟨fun _ => ⟨rfl, (fun s r v h => by cases h), fun s _ => by
      show 1 + 0 ≤ _ + b * (1 + 0)
      omega⟩, fun _ => ⟨rfl, (fun s r v h => by cases h), fun s _ => by
      show 1 + 0 ≤ _ + b * (1 + 0)
      omega⟩⟩
  | k + 1 =>
    have h2 : (n + 1) ^ 2 ≤ (n + 1) ^ 3 := Nat.pow_le_pow_right (Nat.succ_pos n) (by decide)
    have h := amort_old U P hb k
    ⟨fun _ => ((Amort.valueStep (h.1 1) (h.2 2))).call (by omega), fun _ => (Amort.mapStep (h.1 2) (h.2 2)).call hb⟩

theorem old_steps_le (U : CharClass) (P : F64Parse) (s : Str) :
    (oldW U P (s.length + 1)).2.cost s ≤ (4000 * (s.length + 1) ^ 3 + 1) * fromStrCalls U P s := by
  have := ((amort_old U P (Nat.le_refl _) (s.length + 1)).2 0).le s (Nat.le_refl _)
  rw [Nat.zero_mul, Nat.zero_add] at this
  exact this

theorem oldW_run (U : CharClass) (P : F64Parse) (k : Nat) :
    (oldW U P k).1.run = (oldN U P k).1 ∧ (oldW U P k).2.run = (oldN U P k).2 :=
  have h := amort_old (n := 0) U P (Nat.le_refl _) k
  ⟨(h.1 0).run.trans (oldC_run U P k).1, (h.2 0).run.trans (oldC_run U P k).2⟩

/-! ## lower bound -/

theorem recognizeFloat_reads : Reads recognizeFloatW :=
  Reads.recognize (((Reads.tag _).orElse (.tag _)).opt.bind fun _ =>
    (((Reads.takeWhile1 _).bind fun _ => ((Reads.tag _).bind fun _ => (Reads.takeWhile1 _).opt).opt.bind fun _ => .pure _).orElse
      ((Reads.tag _).bind fun _ => (Reads.takeWhile1 _).bind fun _ => .pure _)).bind fun _ =>
    (((Reads.tag _).orElse (.tag _)).bind fun _ => ((Reads.tag _).orElse (.tag _)).opt.bind fun _ => .takeWhile1 _).opt)

theorem oldNumber_reads (P : F64Parse) : Reads (oldNumberW P) := fun s r x h => by
  have h1 := (recognizeFloat_reads.mapRes (k := 0) (g := numberValue P)) s r x h
  have h2 : (oldNumberW P).cost s = recognizeFloatW.cost s + match recognizeFloat s with
    | .ok _ t => 2 * (t.length + 1)
    | _ => 0 := rfl
  have h3 : (CParser.mapRes 0 recognizeFloatW (numberValue P)).cost s = recognizeFloatW.cost s + 0 := rfl
  omega

theorem mapExpression_reads (h : Reads m) : Reads (mapExpressionW m) :=
  (Reads.tag _).wsAround.bind fun _ => h.wsAround.bind fun _ => (Reads.tag _).bind fun _ => .pure _

theorem old_reads (U : CharClass) (P : F64Parse) : ∀ k, Reads (oldW U P k).1 ∧ Reads (oldW U P k).2
  | 0 => ⟨(fun s r v h => by cases h), (fun s r v h => by cases h)⟩
  | k + 1 => by
    obtain ⟨h1, h2⟩ := old_reads U P k
    have hl : Reads (listW (oldW U P k).1) := (Reads.tag _).bind fun _ =>
      (Reads.separatedList (ws_reads.bind fun _ => .tag _) (ws_reads.bind fun _ => h1)).bind fun _ =>
      (ws_reads.bind fun _ => (Reads.tag _).opt.wsAround.bind fun _ => (Reads.tag _).bind fun _ => .pure _).bind fun _ => .pure _
    have hs : Reads stringLiteralW := stringLiteral_reads
    have hi := identifier_reads U
    have ha : Reads (oldAttributeW U (oldW U P k).1 (oldW U P k).2) :=
      (Reads.orElse (inlineWs_reads.bind fun _ => (hi.map.orElse hs.map).bind fun _ => inlineWs_reads.bind fun _ =>
          (Reads.tag _).bind fun _ => inlineWs_reads.bind fun _ => h1.bind fun _ => .pure _)
        (Reads.orElse (inlineWs_reads.bind fun _ => hi.bind fun _ => inlineWs_reads.bind fun _ => (Reads.tag _).opt.bind fun _ =>
            inlineWs_reads.bind fun _ => (mapExpression_reads h2).bind fun _ => .pure _)
          (inlineWs_reads.bind fun _ => hi.bind fun _ => (inlineWs_reads.bind fun _ => hs).many0.bind fun _ =>
            inlineWs_reads.bind fun _ => (mapExpression_reads h2).bind fun _ => .pure _))).bind fun _ =>
      inlineWs_reads.bind fun _ => .pure _
    exact ⟨(null_reads.map.orElse <| (oldNumber_reads P).orElse <| boolean_reads.map.orElse <| (string_reads U).map.orElse <|
        hl.map.orElse (mapExpression_reads h2).map : Reads (valueStepW U P _ _)).call,
      ((ws_reads.bind fun _ => ha.bind fun _ =>
          ((Reads.tag _).wsAround.map.orElse (newline_reads.map.orElse .eof) : Reads attributeEndW).bind fun _ => .pure _ :
            Reads (mapItemW U (oldW U P k).1 (oldW U P k).2)).many0.bind fun _ =>
        ws_reads.bind fun _ => .pure _ : Reads (mapStepW U _ _)).call⟩

end
end Verif
