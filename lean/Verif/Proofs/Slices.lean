import Verif.Spec.Slices
/-! # Proofs about `Slices` -/
set_option autoImplicit false

namespace Verif
open Spec

theorem slices_front {ts : List CowStr} {s : Str} (g : Str) (h : Slices ts s) : Slices ts (g ++ s) := by
  cases h with
  | nil => exact .nil _
  | borrowed g' t r ts h => simpa using Slices.borrowed (g ++ g') t r ts h
  | owned g' t r v ts h1 h2 h => simpa using Slices.owned (g ++ g') t r v ts h1 h2 h

theorem slices_append {ts us : List CowStr} {s t : Str} (h : Slices ts s) (h' : Slices us t) : Slices (ts ++ us) (s ++ t) := by
  induction h with
  | nil => exact slices_front _ h'
  | borrowed g t r ts h ih => simpa using Slices.borrowed g t _ _ ih
  | owned g t r v ts h1 h2 h ih => simpa using Slices.owned g t _ v _ h1 h2 ih

theorem slices_back {ts : List CowStr} {s : Str} (g : Str) (h : Slices ts s) : Slices ts (s ++ g) := by
  simpa using slices_append h (.nil g)

theorem slices_cons {ts : List CowStr} {s : Str} (c : Char) (h : Slices ts s) : Slices ts (c :: s) := slices_front [c] h

theorem slices_one (t : Str) : Slices [.borrowed t] t := by simpa using Slices.borrowed [] t [] [] (.nil [])

theorem slices_own {v t : Str} (h : v.length ≤ t.length) (h' : (utf8 v).length ≤ (utf8 t).length) : Slices [.ownedS v] t := by
  simpa using Slices.owned [] t [] v [] h h' (.nil [])

theorem slices_mem {ts : List CowStr} {s : Str} (h : Slices ts s) : ∀ t ∈ ts, t.owned = false → t.str <:+: s := by
  induction h with
  | nil => simp
  | borrowed g t r ts h ih =>
    intro u hu ho
    rcases List.mem_cons.1 hu with rfl | hu
    · exact ⟨g, r, rfl⟩
    · obtain ⟨a, b, e⟩ := ih u hu ho
      exact ⟨g ++ t ++ a, b, by rw [← e]; simp⟩
  | owned g t r v ts h1 h2 h ih =>
    intro u hu ho
    rcases List.mem_cons.1 hu with rfl | hu
    · simp [CowStr.ownedS] at ho
    · obtain ⟨a, b, e⟩ := ih u hu ho
      exact ⟨g ++ t ++ a, b, by rw [← e]; simp⟩

theorem utf8_append (s t : Str) : utf8 (s ++ t) = utf8 s ++ utf8 t := by simp [utf8]

theorem slices_size {ts : List CowStr} {s : Str} (h : Slices ts s) :
    textChars ts ≤ s.length ∧ textBytes ts ≤ (utf8 s).length := by
  induction h with
  | nil => simp [textChars, textBytes]
  | borrowed g t r ts h ih =>
    simp [textChars, textBytes, CowStr.borrowed, utf8_append] at ih ⊢
    omega
  | owned g t r v ts h1 h2 h ih =>
    simp [textChars, textBytes, CowStr.ownedS, utf8_append] at ih ⊢
    omega

/-! ## Owned texts are no longer than their sources -/

theorem utf8Nat_length (n : Nat) : 1 ≤ (utf8Nat n).length ∧ (utf8Nat n).length ≤ 4 := by
  unfold utf8Nat
  split
  · simp
  · split
    · simp
    · split <;> simp

theorem length_le_utf8 (s : Str) : s.length ≤ (utf8 s).length := by
  induction s with
  | nil => simp
  | cons c s ih =>
    have := (utf8Nat_length c.toNat).1
    simp [utf8] at ih ⊢
    omega

theorem digit_lt {b v : Nat} {c : Char} (h : Digit b c v) : v < b := by
  cases h <;> assumption

theorem numeral_lt {b : Nat} {ds : Str} {n : Nat} (h : Numeral b ds n) : n < b ^ ds.length := by
  induction h with
  | nil => simp
  | snoc ds c n v h hd ih =>
    have := digit_lt hd
    rw [List.length_append, List.length_singleton, Nat.pow_succ]
    have : (n + 1) * b ≤ b ^ ds.length * b := Nat.mul_le_mul_right b ih
    rw [Nat.add_mul] at this
    omega

theorem escape_size {e : Str} {c : Char} {r : Str} (h : Escape e c r) : (utf8Nat c.toNat).length ≤ (utf8 ('\\' :: e)).length := by
  cases h with
  | simple k c r hk =>
    have : c.toNat < 128 := by
      simp [simpleEscapes] at hk
      rcases hk with ⟨-, rfl⟩ | ⟨-, rfl⟩ | ⟨-, rfl⟩ | ⟨-, rfl⟩ | ⟨-, rfl⟩ | ⟨-, rfl⟩ | ⟨-, rfl⟩ | ⟨-, rfl⟩ | ⟨-, rfl⟩ | ⟨-, rfl⟩ <;> decide
    have h1 := length_le_utf8 ['\\', k]
    have : (utf8Nat c.toNat).length = 1 := by unfold utf8Nat; simp [this]
    simp at h1
    omega
  | octal ds c r h0 h3 hm hn =>
    have hl := numeral_lt hn
    have h1 := length_le_utf8 ('\\' :: e)
    have h2 : c.toNat < 2048 := Nat.lt_of_lt_of_le hl (Nat.le_trans (Nat.pow_le_pow_right (by omega) h3) (by decide))
    have hne : 1 ≤ e.length := by cases e <;> simp_all
    have : (utf8Nat c.toNat).length ≤ 2 := by
      unfold utf8Nat
      split
      · simp
      · simp [h2]
    simp at h1
    omega
  | hex k max ds c r hk h0 h3 hm hn =>
    have hl := numeral_lt hn
    have h1 := length_le_utf8 ('\\' :: k :: ds)
    have hne : 1 ≤ ds.length := by cases ds <;> simp_all
    have hb : (utf8Nat c.toNat).length ≤ 3 ∨ 2 ≤ ds.length := by
      rcases Nat.lt_or_ge ds.length 2 with hd | hd
      · left
        have : ds.length = 1 := by omega
        rw [this] at hl
        unfold utf8Nat
        have : c.toNat < 128 := by omega
        simp [this]
      · exact .inr hd
    have := (utf8Nat_length c.toNat).2
    simp at h1
    omega

theorem content_size {p : Char → Prop} {s v r : Str} (h : Content p s v r) :
    v.length ≤ s.length ∧ (utf8 v).length ≤ (utf8 s).length := by
  induction h with
  | nil => simp
  | plain c s v r hc h ih => simp [utf8] at ih ⊢; omega
  | escape e c s v r he h ih =>
    have := escape_size he
    have e1 : utf8 ('\\' :: e ++ s) = utf8 ('\\' :: e) ++ utf8 s := utf8_append _ _
    have e2 : (utf8 (c :: v)).length = (utf8Nat c.toNat).length + (utf8 v).length := by simp [utf8]
    rw [e1, e2]
    simp
    omega

theorem lines_utf8 {s : Str} {ls : List Str} (h : Lines s ls) :
    s.length + 1 = (ls.map fun l => l.length + 1).sum ∧ (utf8 s).length + 1 = (ls.map fun l => (utf8 l).length + 1).sum := by
  induction h with
  | last l h => simp
  | cons l s ls h h' ih =>
    have : (utf8 (l ++ '\n' :: s)).length = (utf8 l).length + 1 + (utf8 s).length := by
      rw [utf8_append]; simp [utf8, utf8Nat]; omega
    rw [this]
    simp
    omega

theorem unindented_size {n : Nat} {a b : Str} (h : Unindented n a b) : b.length ≤ a.length ∧ (utf8 b).length ≤ (utf8 a).length := by
  cases h <;> (rw [utf8_append]; simp)

theorem allUnindented_size {n : Nat} {ls ls' : List Str} (h : AllPairs (Unindented n) ls ls') :
    (ls'.map fun l => l.length + 1).sum ≤ (ls.map fun l => l.length + 1).sum ∧
    (ls'.map fun l => (utf8 l).length + 1).sum ≤ (ls.map fun l => (utf8 l).length + 1).sum := by
  induction h with
  | nil => simp
  | cons a b as bs h h' ih =>
    have := unindented_size h
    simp
    omega

theorem slices_heredocValue {s : Str} {n : Nat} {v : CowStr} (h : HeredocValue s n v) : Slices [v] s := by
  cases h with
  | verbatim => exact slices_one s
  | indented s' _ ls ls' hn hl hu hl' =>
    have := lines_utf8 hl
    have := lines_utf8 hl'
    have := allUnindented_size hu
    exact slices_own (by omega) (by omega)

theorem terminator_rest {m t b r : Str} (h : Terminator m t b r) : r <:+ t := by
  obtain ⟨e, -, rfl, -, -⟩ := h
  exact ⟨_, rfl⟩

/-- The text of a heredoc, up to `rest`. -/
theorem slices_heredoc {U : CharClass} {t e : Str} {v : CowStr} (h : Heredoc U (t ++ e) v e) : Slices [v] t := by
  generalize hz : t ++ e = z at h
  cases h with
  | empty ind m s b _ hm hc ht =>
    exact slices_back (ts := [CowStr.borrowed []]) t (slices_one [])
  | content ind m e' s c b _ _ hm hc he hn hf hv =>
    obtain ⟨⟨t', rfl, e'', he'', rfl, -, -⟩, -⟩ := hf
    have : t = ('<' :: '<' :: (if ind then ['-'] else []) ++ m ++ e') ++ c ++ (e'' ++ b ++ m) :=
      List.append_cancel_right (hz.trans (by simp))
    rw [this]
    exact slices_back _ (slices_front _ (slices_heredocValue hv))

theorem slices_quoted {p : Char → Prop} {src v r : Str} (h : Content p src v r) : Slices [.ownedS v] src :=
  slices_own (content_size h).1 (content_size h).2

theorem slices_borrow {ts : List CowStr} {s : Str} (i : Str) (h : Slices ts s) : Slices (.borrowed i :: ts) (i ++ s) :=
  slices_append (slices_one i) h

theorem slices_expr {U : CharClass} {h : Option Str} {e : Expr} {s : Str} (x : LaidExpr U h e s) : Slices (exprTexts e) s := by
  refine LaidExpr.rec
    (motive_1 := fun _ e s _ => Slices (exprTexts e) s)
    (motive_2 := fun es s _ => Slices (exprsTexts es) s)
    (motive_3 := fun es s _ => Slices (exprsTexts es) s)
    (motive_4 := fun k s _ => Slices [keyText k] s)
    (motive_5 := fun _ k e s _ => Slices (keyText k :: exprTexts e) s)
    (motive_6 := fun es s _ => Slices (pairsTexts es) s)
    ?_ ?_ ?_ ?_ ?_ ?_ ?_ ?_ ?_ ?_ ?_ ?_ ?_ ?_ ?_ ?_ ?_ ?_ ?_ ?_ x
  · exact .nil _
  · exact .nil _
  · exact .nil _
  · intro t n hn; cases hn; exact slices_one _
  · intro src v hc; exact slices_cons _ (slices_back _ (slices_quoted hc))
  · intro t e v he hh; exact slices_heredoc hh
  · intro es s _ ih; exact slices_cons _ ih
  · intro l es s _ _ ih; exact slices_front _ (slices_cons _ ih)
  · intro l m n t h e _ _ _ _ _ ih; exact slices_back _ (slices_back _ (slices_front _ ih))
  · intro s _; exact .nil _
  · intro l t s h e es _ _ _ _ ih1 ih2
    rw [exprsTexts]
    exact slices_append (slices_front _ ih1) ih2
  · intro s _; exact .nil _
  · intro l m t s h e es _ _ _ _ _ ih1 ih2
    rw [exprsTexts]
    exact slices_append (slices_front _ ih1) ih2
  · intro i _; exact slices_one _
  · intro t e _ _ _ _; exact slices_one _
  · intro l ks m n t h k e _ _ _ _ _ ih1 ih2
    have := slices_append (slices_front l ih1) (slices_front (m ++ '=' :: n) ih2)
    simpa using this
  · intro l _; exact .nil _
  · intro p l s k e es _ _ _ ih1 ih2
    rw [pairsTexts, ← List.cons_append]
    exact slices_append (slices_back _ ih1) (slices_cons _ ih2)
  · intro p l n s h k e es _ _ _ _ _ ih1 ih2
    rw [pairsTexts, ← List.cons_append]
    exact slices_append (slices_back _ (slices_back _ ih1)) ih2
  · intro p l k e _ _ ih
    simp only [pairsTexts, List.append_nil]
    exact slices_back _ (slices_back _ ih)

theorem slices_attribute {U : CharClass} {h : Option Str} {k : CowStr} {e : Expr} {s : Str} (x : LaidAttribute U h k e s) :
    Slices (k :: exprTexts e) s := by
  cases x with
  | mk i l m t n h e hi hl hm hx hn hh =>
    have := slices_append (slices_one i) (slices_front (l ++ '=' :: m) (slices_back n (slices_expr hx)))
    simpa using this

theorem slices_labels {U : CharClass} {ls : List BlockLabel} {s : Str} (x : LaidLabels U ls s) : Slices (ls.map labelText) s := by
  induction x with
  | «open» => exact .nil _
  | ident l i s ls hl hi hh hs ih => exact slices_append (ts := [CowStr.borrowed i]) (slices_front _ (slices_one i)) ih
  | string l src v s ls hl hc hs ih =>
    exact slices_append (ts := [CowStr.ownedS v]) (slices_front l (slices_cons _ (slices_quoted hc))) (slices_cons _ ih)

theorem slices_header {U : CharClass} {i : CowStr} {ls : List BlockLabel} {s : Str} (x : LaidHeader U i ls s) :
    Slices (i :: ls.map labelText) s := by
  cases x with
  | mk i s ls hi hh hs => exact slices_borrow i (slices_labels hs)

mutual
theorem slices_element {U : CharClass} {h : Option Str} {el : BodyElement} {s : Str} (x : LaidElement U h el s) :
    Slices (elementTexts el) s := by
  cases x with
  | «attribute» h k e s hx => exact slices_attribute hx
  | emptyBlock i ls s l m hx hl hm =>
    simp only [elementTexts, bodyTexts, List.append_nil]
    exact slices_back _ (slices_back _ (slices_header hx))
  | oneLineBlock i ls s l a m k e hx hl ha hm =>
    simp only [elementTexts, bodyTexts, List.append_nil]
    exact slices_back _ (slices_append (slices_back l (slices_header hx)) (slices_attribute ha))
  | block i ls s l n t m b hx hl hn hb hm =>
    rw [elementTexts, ← List.cons_append]
    exact slices_back _ (slices_append (slices_back _ (slices_back _ (slices_header hx))) (slices_body hb))
theorem slices_body {U : CharClass} {b : Body} {s : Str} (x : LaidBody U b s) : Slices (bodyTexts b) s := by
  cases x with
  | done l h => exact .nil _
  | elem l s n t h el b hl hs hn hx hb =>
    rw [bodyTexts]
    exact slices_append (slices_back _ (slices_front _ (slices_element hs))) (slices_body hb)
end

theorem bodyTexts_append (a b : Body) : bodyTexts (a ++ b) = bodyTexts a ++ bodyTexts b := by
  induction a with
  | nil => rfl
  | cons x a ih => simp [bodyTexts, ih]

theorem bodyNodes_append (a b : Body) : bodyNodes (a ++ b) = bodyNodes a + bodyNodes b := by
  induction a with
  | nil => simp [bodyNodes]
  | cons x a ih => simp [bodyNodes, ih]; omega

theorem slices_document {U : CharClass} {b : Body} {s : Str} (x : LaidDocument U b s) : Slices (bodyTexts b) s := by
  cases x with
  | lines b s h => exact slices_body h
  | last b s el t h h' =>
    rw [bodyTexts_append]
    simp only [bodyTexts, List.append_nil]
    exact slices_append (slices_body h) (slices_element h')

/-! ## Number of nodes -/

theorem isNumber_pos {t : Str} {n : Number} (h : IsNumber t n) : 1 ≤ t.length := by
  cases h with
  | mk sg m x pos w f e hs hm hx =>
    have : 1 ≤ m.length := by
      cases hm with
      | int w hw => obtain ⟨h0, -⟩ := hw; cases m <;> simp_all
      | dot w hw => simp
      | frac w f hw hf => simp; omega
      | dotFrac f hf => simp
    simp; omega

theorem heredoc_pos {U : CharClass} {t e : Str} {v : CowStr} (h : Heredoc U (t ++ e) v e) : 1 ≤ t.length := by
  rcases t with _ | ⟨c, t⟩
  · generalize hz : [] ++ e = z at h
    cases h with
    | empty ind m s b _ hm hc ht =>
      obtain ⟨e', -, rfl, -, -⟩ := ht
      have := congrArg List.length hz
      simp at this; omega
    | content ind m e' s c b _ _ hm hc he hn hf hv =>
      obtain ⟨⟨t', rfl, e'', he'', rfl, -, -⟩, -⟩ := hf
      have := congrArg List.length hz
      simp at this; omega
  · simp

theorem isIdent_pos {U : CharClass} {i : Str} (h : IsIdent U i) : 1 ≤ i.length := by cases h; simp

theorem nodes_expr {U : CharClass} {h : Option Str} {e : Expr} {s : Str} (x : LaidExpr U h e s) : exprNodes e ≤ s.length := by
  refine LaidExpr.rec
    (motive_1 := fun _ e s _ => exprNodes e ≤ s.length)
    (motive_2 := fun es s _ => exprsNodes es ≤ s.length)
    (motive_3 := fun es s _ => exprsNodes es ≤ s.length)
    (motive_4 := fun _ _ _ => True)
    (motive_5 := fun _ _ e s _ => 1 + exprNodes e ≤ s.length)
    (motive_6 := fun es s _ => pairsNodes es ≤ s.length)
    ?_ ?_ ?_ ?_ ?_ ?_ ?_ ?_ ?_ ?_ ?_ ?_ ?_ ?_ ?_ ?_ ?_ ?_ ?_ ?_ x
  · simp [exprNodes]
  · simp [exprNodes]
  · simp [exprNodes]
  · intro t n hn; exact isNumber_pos hn
  · intro src v hc; simp [exprNodes]
  · intro t e v he hh; exact heredoc_pos hh
  · intro es s _ ih; simp [exprNodes]; omega
  · intro l es s _ _ ih; simp [exprNodes]; omega
  · intro l m n t h e _ _ _ _ _ ih; simp; omega
  · intro s _; simp [exprsNodes]
  · intro l t s h e es _ _ _ _ ih1 ih2; simp [exprsNodes]; omega
  · intro s _; simp [exprsNodes]
  · intro l m t s h e es _ _ _ _ _ ih1 ih2; simp [exprsNodes]; omega
  · intros; trivial
  · intros; trivial
  · intro l ks m n t h k e _ _ _ _ _ _ ih2; simp; omega
  · intro l _; simp [pairsNodes]
  · intro p l s k e es _ _ _ ih1 ih2; simp [pairsNodes]; omega
  · intro p l n s h k e es _ _ _ _ _ ih1 ih2; simp [pairsNodes]; omega
  · intro p l k e _ _ ih; simp [pairsNodes]; omega

theorem nodes_attribute {U : CharClass} {h : Option Str} {k : CowStr} {e : Expr} {s : Str} (x : LaidAttribute U h k e s) :
    1 + exprNodes e ≤ s.length := by
  cases x with
  | mk i l m t n h e hi hl hm hx hn hh => have := nodes_expr hx; simp; omega

theorem nodes_labels {U : CharClass} {ls : List BlockLabel} {s : Str} (x : LaidLabels U ls s) : ls.length ≤ s.length := by
  induction x with
  | «open» => simp
  | ident l i s ls hl hi hh hs ih => have := isIdent_pos hi; simp; omega
  | string l src v s ls hl hc hs ih => simp; omega

theorem nodes_header {U : CharClass} {i : CowStr} {ls : List BlockLabel} {s : Str} (x : LaidHeader U i ls s) :
    1 + ls.length ≤ s.length := by
  cases x with
  | mk i s ls hi hh hs => have := isIdent_pos hi; have := nodes_labels hs; simp; omega

mutual
theorem nodes_element {U : CharClass} {h : Option Str} {el : BodyElement} {s : Str} (x : LaidElement U h el s) :
    elementNodes el ≤ s.length := by
  cases x with
  | «attribute» h k e s hx => exact nodes_attribute hx
  | emptyBlock i ls s l m hx hl hm => have := nodes_header hx; simp [elementNodes, bodyNodes]; omega
  | oneLineBlock i ls s l a m k e hx hl ha hm =>
    have := nodes_header hx; have := nodes_attribute ha
    simp [elementNodes, bodyNodes]; omega
  | block i ls s l n t m b hx hl hn hb hm =>
    have := nodes_header hx; have := nodes_body hb
    simp [elementNodes]; omega
theorem nodes_body {U : CharClass} {b : Body} {s : Str} (x : LaidBody U b s) : bodyNodes b ≤ s.length := by
  cases x with
  | done l h => simp [bodyNodes]
  | elem l s n t h el b hl hs hn hx hb =>
    have := nodes_element hs; have := nodes_body hb
    simp [bodyNodes]; omega
end

theorem nodes_document {U : CharClass} {b : Body} {s : Str} (x : LaidDocument U b s) : bodyNodes b ≤ s.length := by
  cases x with
  | lines b s h => exact nodes_body h
  | last b s el t h h' =>
    have := nodes_body h; have := nodes_element h'
    rw [bodyNodes_append]; simp [bodyNodes]; omega

end Verif
