import Verif.Spec.Edit
import Verif.Proofs.Embed
import Verif.Proofs.LastChar
/-! # Replacing values and elements in a text -/
set_option autoImplicit false

namespace Verif
open Spec

variable {U : CharClass}

theorem laidExpr_eol {h : Option Str} {e : Expr} {t : Str} (hl : LaidExpr U h e t) : ∀ x, h = some x → Eol x := by
  intro x hx
  cases hl <;> cases hx
  assumption

/-- `s` contains a text of `e` (at the end of which `s` may require what comes next), and with any other value there the
result is as `G` says. -/
def Span (U : CharClass) (e : Expr) (h : Option Str) (s : Str) (G : Expr → Option Str → Str → Prop) : Prop :=
  ∃ pre x post hx, s = pre ++ x ++ post ∧ LaidExpr U hx e x ∧ (∀ rest, Ending h rest → Ending hx (post ++ rest)) ∧
    ∀ h' e' x' rest, LaidExpr U h' e' x' → Ending h' (post ++ rest) → ∃ h'', Ending h'' rest ∧ G e' h'' (pre ++ x' ++ post)

theorem span_here {e : Expr} {h : Option Str} {s : Str} (hl : LaidExpr U h e s) :
    Span U e h s fun e' h'' t => LaidExpr U h'' e' t :=
  ⟨[], s, [], h, by simp, hl, fun _ h => h, fun h' e' x' rest hx he => ⟨h', he, by simpa using hx⟩⟩

theorem Span.wrap {e : Expr} {h H : Option Str} {s : Str} {G G' : Expr → Option Str → Str → Prop} (hs : Span U e h s G)
    (p q : Str) (hq : ∀ rest, Ending H rest → Ending h (q ++ rest))
    (hG : ∀ e' h'' t rest, Ending h'' (q ++ rest) → G e' h'' t → ∃ H'', Ending H'' rest ∧ G' e' H'' (p ++ t ++ q)) :
    Span U e H (p ++ s ++ q) G' := by
  obtain ⟨pre, x, post, hx, rfl, h1, h2, h3⟩ := hs
  refine ⟨p ++ pre, x, post ++ q, hx, by simp, h1, fun rest hr => ?_, fun h' e' x' rest h4 h5 => ?_⟩
  · have := h2 _ (hq rest hr)
    simpa using this
  · obtain ⟨h'', h6, h7⟩ := h3 h' e' x' (q ++ rest) h4 (by simpa using h5)
    obtain ⟨H'', h8, h9⟩ := hG e' h'' _ rest h6 h7
    exact ⟨H'', h8, by simpa using h9⟩

theorem Span.cast {e : Expr} {h : Option Str} {s s' : Str} {G : Expr → Option Str → Str → Prop} (hs : Span U e h s G)
    (he : s = s') : Span U e h s' G := he ▸ hs

theorem Ending.append {h : Option Str} {s : Str} (hn : Next h s) (he : ∀ x, h = some x → Eol x) (r : Str) : Ending h (s ++ r) :=
  ⟨hn.append r, he⟩

theorem lineEnds_mem {n : Str} (h : LineEnds n) : '\n' ∈ n := by
  have hE : ∀ e : Str, Eol e → '\n' ∈ e := by intro e he; cases he <;> simp
  cases h with
  | mk i l hi _ =>
    refine List.mem_append.2 (.inl ?_)
    cases hi with
    | eol _ h => exact hE _ h
    | line _ h => cases h <;> simp [hE _ ‹Eol _›]
    | comment s e _ h => simp [hE _ h]

theorem laidTupleEnd_mem {s : Str} (h : LaidTupleEnd s) : ']' ∈ s := by cases h <;> simp

theorem laidTail_mem {es : List Expr} {s : Str} : LaidTail U es s → ']' ∈ s
  | .last s h => laidTupleEnd_mem h
  | .more l m t s h e es _ _ _ ht _ => by simp [laidTail_mem ht]

mutual
theorem span_expr : ∀ {h : Option Str} {E : Expr} {s : Str}, LaidExpr U h E s → ∀ (C : ExprPlace) (e : Expr), E = C.fill e →
    Span U e h s fun e' h'' t => LaidExpr U h'' (C.fill e') t
  | _, _, _, hl@(.null), .here, e, hE => by
    simp only [ExprPlace.fill] at hE ⊢; subst hE; exact span_here hl
  | _, _, _, hl@(.true), .here, e, hE => by
    simp only [ExprPlace.fill] at hE ⊢; subst hE; exact span_here hl
  | _, _, _, hl@(.false), .here, e, hE => by
    simp only [ExprPlace.fill] at hE ⊢; subst hE; exact span_here hl
  | _, _, _, hl@(.number _ _ _), .here, e, hE => by
    simp only [ExprPlace.fill] at hE ⊢; subst hE; exact span_here hl
  | _, _, _, hl@(.quoted _ _ _), .here, e, hE => by
    simp only [ExprPlace.fill] at hE ⊢; subst hE; exact span_here hl
  | _, _, _, hl@(.heredoc _ _ _ _ _), .here, e, hE => by
    simp only [ExprPlace.fill] at hE ⊢; subst hE; exact span_here hl
  | _, _, _, hl@(.tuple _ _ _), .here, e, hE => by
    simp only [ExprPlace.fill] at hE ⊢; subst hE; exact span_here hl
  | _, _, _, hl@(.object _ _ _ _ _), .here, e, hE => by
    simp only [ExprPlace.fill] at hE ⊢; subst hE; exact span_here hl
  | _, _, _, hl@(.bracket _ _ _ _ _ _ _ _ _ _ _), .here, e, hE => by
    simp only [ExprPlace.fill] at hE ⊢; subst hE; exact span_here hl
  | _, _, _, .tuple es s ht, .item a C b, e, hE => by
    injection hE with hE
    refine ((span_tuple ht a C b e hE).wrap (H := none) ['['] [] (fun _ _ => .none _) ?_).cast (by simp)
    rintro e' h'' t rest - ⟨rfl, h⟩
    exact ⟨none, .none _, by simpa [ExprPlace.fill] using LaidExpr.tuple _ _ h⟩
  | _, _, _, .object l es s hl ho, .value a k C b, e, hE => by
    injection hE with hE
    refine ((span_object ho a k C b e hE).wrap (H := none) (l ++ ['{']) [] (fun _ _ => .none _) ?_).cast (by simp)
    rintro e' h'' t rest - ⟨rfl, h⟩
    exact ⟨none, .none _, by simpa [ExprPlace.fill] using LaidExpr.object l _ _ hl h⟩
  | _, _, _, .bracket l m n t h0 e0 hl hm ht hn hx, .item a C b, e, hE => by
    refine ((span_expr ht (.item a C b) e hE).wrap (H := none) (l ++ '(' :: m) (n ++ [')'])
      (fun rest _ => Ending.append hx (laidExpr_eol ht) rest) ?_).cast (by simp)
    intro e' h'' t' rest hr h
    exact ⟨none, .none _, by simpa using LaidExpr.bracket l m n _ _ _ hl hm h hn (hr.shrink (c := ')') (by simp) (by decide))⟩
  | _, _, _, .bracket l m n t h0 e0 hl hm ht hn hx, .value a k C b, e, hE => by
    refine ((span_expr ht (.value a k C b) e hE).wrap (H := none) (l ++ '(' :: m) (n ++ [')'])
      (fun rest _ => Ending.append hx (laidExpr_eol ht) rest) ?_).cast (by simp)
    intro e' h'' t' rest hr h
    exact ⟨none, .none _, by simpa using LaidExpr.bracket l m n _ _ _ hl hm h hn (hr.shrink (c := ')') (by simp) (by decide))⟩

theorem span_tuple : ∀ {es : List Expr} {s : Str}, LaidTuple U es s → ∀ (a : List Expr) (C : ExprPlace) (b : List Expr) (e : Expr),
    es = a ++ C.fill e :: b → Span U e none s fun e' h'' t => h'' = none ∧ LaidTuple U (a ++ C.fill e' :: b) t
  | _, _, .empty s hs, a, C, b, e, hE => by simp at hE
  | _, _, .elems l t s h e0 es hl ht hs hx, [], C, b, e, hE => by
    injection hE with h1 h2
    subst h2
    refine ((span_expr ht C e h1).wrap (H := none) l s (fun rest _ => Ending.append hx (laidExpr_eol ht) rest) ?_)
    intro e' h'' t' rest hr h
    exact ⟨none, .none _, rfl, .elems l _ s _ _ _ hl h hs (hr.shrink (c := ']') (laidTail_mem hs) (by decide))⟩
  | _, _, .elems l t s h e0 es hl ht hs hx, x :: a, C, b, e, hE => by
    injection hE with h1 h2
    subst h1
    refine ((span_tail hs a C b e h2).wrap (H := none) (l ++ t) [] (fun _ _ => .none _) ?_).cast (by simp)
    rintro e' h'' t' rest - ⟨rfl, h3, h4⟩
    refine ⟨none, .none _, rfl, ?_⟩
    have := LaidTuple.elems l t _ h _ _ hl ht h3 (h4 h ⟨hx, laidExpr_eol ht⟩)
    simpa using this

theorem span_tail : ∀ {es : List Expr} {s : Str}, LaidTail U es s → ∀ (a : List Expr) (C : ExprPlace) (b : List Expr) (e : Expr),
    es = a ++ C.fill e :: b →
      Span U e none s fun e' h'' t => h'' = none ∧ LaidTail U (a ++ C.fill e' :: b) t ∧ ∀ h, Ending h s → Next h t
  | _, _, .last s hs, a, C, b, e, hE => by simp at hE
  | _, _, .more l m t s h e0 es hl hm ht hs hx, [], C, b, e, hE => by
    injection hE with h1 h2
    subst h2
    refine ((span_expr ht C e h1).wrap (H := none) (l ++ ',' :: m) s (fun rest _ => Ending.append hx (laidExpr_eol ht) rest) ?_)
    intro e' h'' t' rest hr h
    refine ⟨none, .none _, rfl, .more l m _ s _ _ _ hl hm h hs (hr.shrink (c := ']') (laidTail_mem hs) (by decide)), fun h0 h0' => ?_⟩
    have := (Ending.shrink (s := l ++ [',']) (r := m ++ t ++ s) (c := ',') (by simpa using h0') (by simp) (by decide)).append (m ++ t' ++ s)
    simpa using this
  | _, _, .more l m t s h e0 es hl hm ht hs hx, x :: a, C, b, e, hE => by
    injection hE with h1 h2
    subst h1
    refine ((span_tail hs a C b e h2).wrap (H := none) (l ++ ',' :: m ++ t) [] (fun _ _ => .none _) ?_).cast (by simp)
    rintro e' h'' t' rest - ⟨rfl, h3, h4⟩
    refine ⟨none, .none _, rfl, ?_, fun h0 h0' => ?_⟩
    · have := LaidTail.more l m t _ h _ _ hl hm ht h3 (h4 h ⟨hx, laidExpr_eol ht⟩)
      simpa using this
    · have := (Ending.shrink (s := l ++ [',']) (r := m ++ t ++ s) (c := ',') (by simpa using h0') (by simp) (by decide)).append (m ++ t ++ t')
      simpa using this

theorem span_pair : ∀ {h : Option Str} {k : ObjKey} {E : Expr} {s : Str}, LaidPair U h k E s → ∀ (C : ExprPlace) (e : Expr),
    E = C.fill e → Span U e h s fun e' h'' t => LaidPair U h'' k (C.fill e') t
  | _, _, _, _, .mk l ks m n t h k e0 hl hk hm hn ht, C, e, hE => by
    refine ((span_expr ht C e hE).wrap (H := h) (l ++ ks ++ m ++ '=' :: n) [] (fun _ h => h) ?_).cast (by simp)
    intro e' h'' t' rest hr h'
    exact ⟨h'', hr, by simpa using LaidPair.mk l ks m n _ _ k _ hl hk hm hn h'⟩

theorem span_object : ∀ {es : List (ObjKey × Expr)} {s : Str}, LaidObject U es s → ∀ (a : List (ObjKey × Expr)) (k : ObjKey)
    (C : ExprPlace) (b : List (ObjKey × Expr)) (e : Expr), es = a ++ (k, C.fill e) :: b →
      Span U e none s fun e' h'' t => h'' = none ∧ LaidObject U (a ++ (k, C.fill e') :: b) t
  | _, _, .close l hl, a, k, C, b, e, hE => by simp at hE
  | _, _, .comma p l s k0 e0 es hp hl ho, [], k, C, b, e, hE => by
    injection hE with h1 h2
    injection h1 with h1 h3
    subst h2; subst h1
    refine ((span_pair hp C e h3).wrap (H := none) [] (l ++ ',' :: s) (fun _ _ => .none _) ?_).cast (by simp)
    intro e' h'' t rest hr h
    have := Ending.inline (l := l) (c := ',') (r := s ++ rest) (by simpa using hr) hl (by decide) (by decide)
    subst this
    exact ⟨none, .none _, rfl, by simpa using LaidObject.comma _ l s _ _ _ h hl ho⟩
  | _, _, .comma p l s k0 e0 es hp hl ho, x :: a, k, C, b, e, hE => by
    injection hE with h1 h2
    subst h1
    refine ((span_object ho a k C b e h2).wrap (H := none) (p ++ l ++ [',']) [] (fun _ _ => .none _) ?_).cast (by simp)
    rintro e' h'' t rest - ⟨rfl, h⟩
    exact ⟨none, .none _, rfl, by simpa using LaidObject.comma p l _ _ _ _ hp hl h⟩
  | _, _, .newline p l n s h0 k0 e0 es hp hl hn hx ho, [], k, C, b, e, hE => by
    injection hE with h1 h2
    injection h1 with h1 h3
    subst h2; subst h1
    refine ((span_pair hp C e h3).wrap (H := none) [] (l ++ n ++ s) (fun rest _ => ?_) ?_).cast (by simp)
    · rw [List.append_assoc (l ++ n)]
      refine Ending.append hx ?_ _
      cases hp with
      | mk _ _ _ _ _ _ _ _ _ _ _ _ ht => exact laidExpr_eol ht
    · intro e' h'' t rest hr h
      rw [List.append_assoc (l ++ n)] at hr
      have h4 : Next h'' (l ++ n) := hr.shrink (c := '\n') (List.mem_append.2 (.inr (lineEnds_mem hn))) (by decide)
      exact ⟨none, .none _, rfl, by simpa using LaidObject.newline _ l n s _ _ _ _ h hl hn h4 ho⟩
  | _, _, .newline p l n s h0 k0 e0 es hp hl hn hx ho, x :: a, k, C, b, e, hE => by
    injection hE with h1 h2
    subst h1
    refine ((span_object ho a k C b e h2).wrap (H := none) (p ++ l ++ n) [] (fun _ _ => .none _) ?_).cast (by simp)
    rintro e' h'' t rest - ⟨rfl, h⟩
    exact ⟨none, .none _, rfl, by simpa using LaidObject.newline p l n _ _ _ _ _ hp hl hn hx h⟩
  | _, _, .last p l k0 e0 hp hl, [], k, C, b, e, hE => by
    injection hE with h1 h2
    injection h1 with h1 h3
    subst h2; subst h1
    refine ((span_pair hp C e h3).wrap (H := none) [] (l ++ ['}']) (fun _ _ => .none _) ?_).cast (by simp)
    intro e' h'' t rest hr h
    have := Ending.inline (l := l) (c := '}') (r := rest) (by simpa using hr) hl (by decide) (by decide)
    subst this
    exact ⟨none, .none _, rfl, by simpa using LaidObject.last _ l _ _ h hl⟩
  | _, _, .last p l k0 e0 hp hl, x :: a, k, C, b, e, hE => by simp at hE
end

theorem span_attribute {h : Option Str} {k : CowStr} {E : Expr} {s : Str} (hl : LaidAttribute U h k E s) (C : ExprPlace) (e : Expr)
    (hE : E = C.fill e) : Span U e h s fun e' h'' t => LaidAttribute U h'' k (C.fill e') t := by
  cases hl with
  | mk i l m t n _ _ hi hl hm ht hn hx =>
    refine ((span_expr ht C e hE).wrap (H := h) (i ++ l ++ '=' :: m) n (fun rest hr => ?_) ?_).cast (by simp)
    · by_cases h0 : h = none
      · subst h0; exact .none _
      · rw [hx h0]; exact hr
    · intro e' h'' t' rest hr h'
      have hn0 : h'' ≠ none → n = [] := fun h0 => hr.no_inline hn h0
      refine ⟨h'', ?_, by simpa using LaidAttribute.mk i l m _ n _ _ hi hl hm h' hn hn0⟩
      by_cases h0 : h'' = none
      · subst h0; exact .none _
      · rw [hn0 h0] at hr; exact hr

theorem laidElement_eol {h : Option Str} {el : BodyElement} {s : Str} (hl : LaidElement U h el s) : ∀ x, h = some x → Eol x := by
  intro x hx
  cases hl with
  | «attribute» _ _ _ _ ha =>
    cases ha with
    | mk _ _ _ _ _ _ _ _ _ _ ht => exact laidExpr_eol ht x hx
  | _ => cases hx

mutual
theorem span_element : ∀ {h : Option Str} {el : BodyElement} {s : Str}, LaidElement U h el s → ∀ (D : ElementPlace) (e : Expr),
    el = D.fill e → Span U e h s fun e' h'' t => LaidElement U h'' (D.fill e') t
  | _, _, _, .attribute h k e0 s ha, .attribute k' C, e, hE => by
    injection hE with h1 h2
    subst h1
    refine ((span_attribute ha C e h2).wrap (H := h) [] [] (fun _ h => h) ?_).cast (by simp)
    intro e' h'' t rest hr h'
    exact ⟨h'', hr, by simpa [ElementPlace.fill] using LaidElement.attribute _ _ _ _ h'⟩
  | _, _, _, .emptyBlock i ls s l m hh hl hm, .block i' ls' a D b, e, hE => by
    simp [ElementPlace.fill] at hE
  | _, _, _, .oneLineBlock i ls s l a m k e0 hh hl ha hm, .block i' ls' a' D b, e, hE => by
    injection hE with h1 h2 h3
    subst h1; subst h2
    obtain ⟨rfl, h4, rfl⟩ : a' = [] ∧ BodyElement.attribute k e0 = D.fill e ∧ b = [] := by
      cases a' with
      | nil => injection h3 with h3 h4; exact ⟨rfl, h3, h4.symm⟩
      | cons => simp at h3
    cases D with
    | block => cases h4
    | «attribute» k' C =>
      injection h4 with h1 h2
      subst h1
      refine ((span_attribute ha C e h2).wrap (H := none) (s ++ l) ('}' :: m) (fun _ _ => .none _) ?_).cast (by simp)
      intro e' h'' t rest hr h'
      have := Ending.inline (l := []) (c := '}') (r := m ++ rest) (by simpa using hr) .nil (by decide) (by decide)
      subst this
      exact ⟨none, .none _, by simpa [ElementPlace.fill] using LaidElement.oneLineBlock i ls s l t m _ _ hh hl h' hm⟩
  | _, _, _, .block i ls s l n t m b0 hh hl hn hb hm, .block i' ls' a D b, e, hE => by
    injection hE with h1 h2 h3
    subst h1; subst h2
    refine ((span_body hb a D b e h3).wrap (H := none) (s ++ l ++ n) ('}' :: m) (fun _ _ => .none _) ?_).cast (by simp)
    rintro e' h'' t' rest - ⟨rfl, h⟩
    exact ⟨none, .none _, by simpa [ElementPlace.fill] using LaidElement.block i ls s l n _ m _ hh hl hn h hm⟩

theorem span_body : ∀ {b0 : Body} {s : Str}, LaidBody U b0 s → ∀ (a : Body) (D : ElementPlace) (b : Body) (e : Expr),
    b0 = a ++ D.fill e :: b → Span U e none s fun e' h'' t => h'' = none ∧ LaidBody U (a ++ D.fill e' :: b) t
  | _, _, .done l hl, a, D, b, e, hE => by simp at hE
  | _, _, .elem l s n t h el b0 hl he hn hx hb, [], D, b, e, hE => by
    injection hE with h1 h2
    subst h2
    refine ((span_element he D e h1).wrap (H := none) l (n ++ t) (fun rest _ => ?_) ?_).cast (by simp)
    · rw [List.append_assoc]; exact Ending.append hx (laidElement_eol he) _
    · intro e' h'' t' rest hr h'
      rw [List.append_assoc] at hr
      exact ⟨none, .none _, rfl, by
        simpa using LaidBody.elem l _ n t _ _ _ hl h' hn (hr.shrink (c := '\n') (lineEnds_mem hn) (by decide)) hb⟩
  | _, _, .elem l s n t h el b0 hl he hn hx hb, x :: a, D, b, e, hE => by
    injection hE with h1 h2
    subst h1
    refine ((span_body hb a D b e h2).wrap (H := none) (l ++ s ++ n) [] (fun _ _ => .none _) ?_).cast (by simp)
    rintro e' h'' t' rest - ⟨rfl, h3⟩
    exact ⟨none, .none _, rfl, by simpa using LaidBody.elem l s n _ _ _ _ hl he hn hx h3⟩
end

theorem span_document {s : Str} (p : ValuePlace) (e : Expr) (h : LaidDocument U (p.fill e) s) :
    Span U e none s fun e' h'' t => h'' = none → LaidDocument U (p.fill e') t := by
  obtain ⟨a, D, b⟩ := p
  simp only [ValuePlace.fill] at h ⊢
  generalize hE : a ++ D.fill e :: b = B at h
  cases h with
  | lines _ _ h =>
    refine ((span_body h a D b e hE.symm).wrap (H := none) [] [] (fun _ h => h) ?_).cast (by simp)
    rintro e' h'' t rest - ⟨rfl, h'⟩
    exact ⟨none, .none _, fun _ => .lines _ _ (by simpa using h')⟩
  | last b0 s el t hb he =>
    rcases List.eq_nil_or_concat b with rfl | ⟨b', el', hb'⟩
    · have h1 : a = b0 ∧ D.fill e = el := by
        have := List.append_inj' hE rfl
        exact ⟨this.1, by injection this.2⟩
      obtain ⟨rfl, h1⟩ := h1
      refine ((span_element he D e h1.symm).wrap (H := none) s [] (fun _ h => h) ?_).cast (by simp)
      intro e' h'' t' rest hr h'
      exact ⟨h'', hr, fun h0 => by subst h0; simpa using LaidDocument.last a s _ _ hb h'⟩
    · rw [List.concat_eq_append] at hb'
      subst hb'
      have h1 : a ++ D.fill e :: b' = b0 ∧ el' = el := by
        have := List.append_inj' (s₁ := a ++ D.fill e :: b') (t₁ := [el']) (s₂ := b0) (t₂ := [el]) (by simpa using hE) rfl
        exact ⟨this.1, by injection this.2⟩
      obtain ⟨h1, rfl⟩ := h1
      refine ((span_body hb a D b' e h1.symm).wrap (H := none) [] t (fun _ _ => .none _) ?_).cast (by simp)
      rintro e' h'' t' rest - ⟨rfl, h'⟩
      exact ⟨none, .none _, fun _ => by simpa using LaidDocument.last _ _ el' t h' he⟩

theorem newlineItem_lf {i : Str} (h : NewlineItem i) : ∃ t, i = t ++ ['\n'] := by
  have hE : ∀ (p e : Str), Eol e → ∃ t, p ++ e = t ++ ['\n'] := by
    intro p e he
    cases he with
    | lf => exact ⟨p, rfl⟩
    | crlf => exact ⟨p ++ ['\r'], by simp⟩
  cases h with
  | eol _ h => simpa using hE [] _ h
  | line _ h =>
    cases h with
    | hash b e _ h => exact hE _ _ h
    | slash b e _ h => exact hE ('/' :: '/' :: b) _ h
  | comment s e _ h => exact hE s _ h

theorem lineEnds_lf_end {n : Str} (h : LineEnds n) : ∃ t, n = t ++ ['\n'] := by
  cases h with
  | mk i l hi hl =>
    induction hl generalizing i with
    | nil => simpa using newlineItem_lf hi
    | cons j l hj _ ih =>
      obtain ⟨t, ht⟩ := ih j hj
      exact ⟨i ++ t, by rw [ht]; simp⟩

theorem Spec.WholeLines.append {s t : Str} (hs : WholeLines s) (ht : WholeLines t) : WholeLines (s ++ t) := by
  rcases ht with rfl | ⟨u, rfl⟩
  · simpa using hs
  · exact .inr ⟨s ++ u, by simp⟩

theorem laidBody_split : ∀ (a c : Body) {s : Str}, LaidBody U (a ++ c) s →
    ∃ p q, s = p ++ q ∧ WholeLines p ∧ LaidBody U a p ∧ LaidBody U c q
  | [], c, s, h => ⟨[], s, rfl, .inl rfl, .done _ .nil, h⟩
  | x :: a, c, s, h => by
    rw [List.cons_append] at h
    cases h with
    | elem l s n t h _ _ hl he hn hx hb =>
      obtain ⟨p, q, rfl, h1, h2, h3⟩ := laidBody_split a c hb
      refine ⟨l ++ s ++ n ++ p, q, by simp, ?_, .elem l s n p h x a hl he hn hx h2, h3⟩
      refine Spec.WholeLines.append (.inr ?_) h1
      obtain ⟨t, ht⟩ := lineEnds_lf_end hn
      exact ⟨l ++ s ++ t, by rw [ht]; simp⟩

theorem laidDocument_of_lines {b : Body} {s : Str} (hs : WholeLines s) (h : LaidDocument U b s) : LaidBody U b s := by
  rcases hs with rfl | ⟨t, rfl⟩
  · generalize hz : ([] : Str) = z at h
    cases h with
    | lines _ _ h => exact h
    | last b s el t _ he =>
      obtain ⟨p, c, e, -⟩ := laidElement_noNl he
      subst e
      simp at hz
  · exact laidDocument_lines h

theorem not_oneLine : ∀ (p : ElementsPlace) (els : Body), ¬ MayBeOneLine (p.inner els) → ¬ MayBeOneLine (p.fill els)
  | .between _ _, _, h => h
  | .block a i ls p c, els, _ => by
    rintro (h | ⟨k, e, h⟩)
    · simp [ElementsPlace.fill] at h
    · simp only [ElementsPlace.fill] at h
      cases a with
      | nil => injection h with h _; cases h
      | cons => simp at h

theorem elements_body : ∀ (p : ElementsPlace) {els : Body} {s : Str}, LaidBody U (p.fill els) s →
    (p.InBlock → ¬ MayBeOneLine (p.inner els)) → ∃ pre x post, s = pre ++ x ++ post ∧ WholeLines x ∧ LaidBody U els x ∧
      ∀ els' y, LaidBody U els' y → LaidBody U (p.fill els') (pre ++ y ++ post)
  | .between a c, els, s, h, _ => by
    simp only [ElementsPlace.fill, List.append_assoc] at h ⊢
    obtain ⟨p, q, rfl, -, h1, h2⟩ := laidBody_split a (els ++ c) h
    obtain ⟨x, q, rfl, hx, h3, h4⟩ := laidBody_split els c h2
    exact ⟨p, x, q, by simp, hx, h3, fun els' y hy => laidBody_append h1 (laidBody_append hy h4)⟩
  | .block a i ls p c, els, s, h, hin => by
    have hin : ¬ MayBeOneLine (p.inner els) := hin trivial
    simp only [ElementsPlace.fill] at h ⊢
    obtain ⟨s1, q, rfl, -, h1, h2⟩ := laidBody_split a _ h
    cases h2 with
    | elem l s n t h0 _ _ hl he hn hx hb =>
      have ho := not_oneLine p els hin
      generalize hz : p.fill els = z at he ho
      cases he with
      | emptyBlock => exact absurd (.inl rfl) ho
      | oneLineBlock => exact absurd (.inr ⟨_, _, rfl⟩) ho
      | block _ _ s' l' n' t' m' _ hh hl' hn' hb' hm' =>
        subst hz
        obtain ⟨pre, x, post, rfl, h3, h4, h5⟩ := elements_body p hb' (fun _ => hin)
        refine ⟨s1 ++ l ++ s' ++ l' ++ n' ++ pre, x, post ++ '}' :: m' ++ n ++ t, by simp, h3, h4, fun els' y hy => ?_⟩
        have := laidBody_append h1 (.elem l _ n t none _ c hl (.block i ls s' l' n' _ m' _ hh hl' hn' (h5 els' y hy) hm') hn (.none _) hb)
        simpa using this

theorem commented_layout : ∀ {ls : List Str}, (∀ l ∈ ls, TextLine l) → AnyLayout (ls.flatMap fun l => '#' :: l)
  | [], _ => .nil
  | l :: ls, h => by
    obtain ⟨b, e, rfl, he, hb⟩ := h l (by simp)
    rw [List.flatMap_cons]
    exact .cons _ _ (.line _ (.hash b e hb he)) (commented_layout fun l hl => h l (by simp [hl]))

end Verif
