import Verif.Proofs.Work
/-! # The number of steps of the token and layout parsers -/
set_option autoImplicit false

namespace Verif
open PRes Spec CParser

section
variable {α β : Type}

/-- at most `k (n + 1) ^ d` steps on an input of length `n` -/
def Poly (d k : Nat) (w : CParser α) : Prop := ∀ n, Leaf n (k * (n + 1) ^ d) w

theorem Poly.shrink {d k : Nat} {w : CParser α} (h : Poly d k w) : Shrinks w.run := (h 0).shrink

theorem Poly.mono {d k k' : Nat} {w : CParser α} (h : Poly d k w) (hk : k ≤ k') : Poly d k' w :=
  fun n => (h n).mono (Nat.mul_le_mul_right _ hk)

theorem Poly.up {d d' k : Nat} {w : CParser α} (h : Poly d k w) (hd : d ≤ d') : Poly d' k w :=
  fun n => (h n).mono (Nat.mul_le_mul_left _ (Nat.pow_le_pow_right (Nat.succ_pos n) hd))

theorem Poly.pure {d : Nat} (v : α) : Poly d 0 (Pure.pure v : CParser α) :=
  fun n => (Leaf.pure v).mono (Nat.zero_le _)

theorem Poly.bind {d a b : Nat} {p : CParser α} {f : α → CParser β} (hp : Poly d a p) (hf : ∀ v, Poly d b (f v)) :
    Poly d (a + b) (p >>= f) := fun n => by
  rw [Nat.add_mul]; exact (hp n).bind fun v => hf v n

theorem Poly.orElse {d a b : Nat} {p q : CParser α} (hp : Poly d a p) (hq : Poly d b q) : Poly d (a + b) (p <///> q) :=
  fun n => by rw [Nat.add_mul]; exact (hp n).orElse (hq n)

theorem Poly.map {d a : Nat} {g : α → β} {p : CParser α} (hp : Poly d a p) : Poly d a (CParser.map g p) := fun n => (hp n).map

theorem Poly.opt {d a : Nat} {p : CParser α} (hp : Poly d a p) : Poly d a (CParser.opt p) := fun n => (hp n).opt

theorem Poly.peek {d a : Nat} {p : CParser α} (hp : Poly d a p) : Poly d a (CParser.peek p) := fun n => (hp n).peek

theorem Poly.returnError {d a : Nat} {p : CParser α} (hp : Poly d a p) : Poly d a (CParser.returnError p) :=
  fun n => (hp n).returnError

private theorem one_le_pow (n d : Nat) : 1 ≤ (n + 1) ^ d := Nat.one_le_pow _ _ (Nat.succ_pos n)

theorem Poly.verify {d a : Nat} {g : α → Bool} {p : CParser α} (hp : Poly d a p) : Poly d (a + 1) (CParser.verify p g) :=
  fun n => (hp n).verify.mono (by rw [Nat.succ_mul]; have := one_le_pow n d; omega)

theorem Poly.const {d a : Nat} {p : CParser α} (hp : ∀ n, Leaf n a p) : Poly d a p :=
  fun n => (hp n).mono (Nat.le_mul_of_pos_right _ (one_le_pow n d))

theorem Poly.mapRes {d a k : Nat} {g : α → Option β} {p : CParser α} (hp : Poly d a p) : Poly d (a + k) (CParser.mapRes k p g) :=
  fun n => (hp n).mapRes.mono (by
    rw [Nat.add_mul]; exact Nat.add_le_add_left (Nat.le_mul_of_pos_right _ (one_le_pow n d)) _)

theorem Poly.tag {d : Nat} (t : Str) : Poly d (1 + t.length) (tagW t) := .const fun _ => .tag t

theorem Poly.tag' (t : Str) : Poly 1 1 (tagW t) := fun n => (Leaf.tag' t).mono (by rw [Nat.pow_one]; omega)

theorem Poly.eof {d : Nat} : Poly d 1 eofW := .const fun _ => .eof

theorem Poly.takeWhile (f : Char → Bool) : Poly 1 2 (takeWhileW f) := fun n => (Leaf.takeWhile f).mono (by rw [Nat.pow_one]; omega)
theorem Poly.takeWhile1 (f : Char → Bool) : Poly 1 2 (takeWhile1W f) := fun n => (Leaf.takeWhile1 f).mono (by rw [Nat.pow_one]; omega)
theorem Poly.takeWhileMN {d : Nat} (m k : Nat) (f : Char → Bool) : Poly d (k + 2) (takeWhileMNW m k f) :=
  .const fun _ => .takeWhileMN m k f
theorem Poly.takeUntil (t : Str) : Poly 1 (1 + t.length) (takeUntilW t) := fun n => by
  rw [Nat.pow_one]; exact Leaf.takeUntil t

theorem Poly.many0 {d a : Nat} {p : CParser α} (hp : Poly d a p) : Poly (d + 1) a (CParser.many0 p) := fun n =>
  (hp n).many0.mono (by rw [Nat.pow_succ, Nat.mul_left_comm, Nat.mul_comm (n + 1)]; exact Nat.le_refl _)

theorem Poly.many0Lin {a b : Nat} {p : CParser α} (hp : Poly 1 b p) (ha : Prop' a p) : Poly 1 (a + b) (CParser.many0 p) := fun n =>
  ((hp n).many0Lin ha).mono (by
    rw [Nat.pow_one, Nat.add_mul]
    exact Nat.add_le_add_right (Nat.mul_le_mul_left _ (Nat.le_succ n)) _)

theorem Poly.many1Lin {a b : Nat} {p : CParser α} (hp : Poly 1 b p) (ha : Prop' a p) :
    Poly 1 (b + (a + b)) (CParser.many1 p) := fun n =>
  ((hp n).many1Lin ha).mono (by
    rw [Nat.pow_one, Nat.add_mul, Nat.add_mul]
    have : a * n ≤ a * (n + 1) := Nat.mul_le_mul_left a (Nat.le_succ n)
    omega)

/-! ## layout: steps proportional to what is skipped -/

/-- where it succeeds, it makes steps in proportion to what it consumes, and `a` more -/
def OkLin (a : Nat) (p : CParser α) : Prop :=
  ∀ s r v, p.run s = .ok r v → r.length ≤ s.length ∧ p.cost s ≤ a * (s.length - r.length) + a

theorem OkLin.mono {a b : Nat} {p : CParser α} (h : OkLin a p) (hab : a ≤ b) : OkLin b p := fun s r v hr => by
  obtain ⟨h1, h2⟩ := h s r v hr
  refine ⟨h1, Nat.le_trans h2 (Nat.add_le_add (Nat.mul_le_mul_right _ hab) hab)⟩

theorem OkLin.prop {a : Nat} {p : CParser α} (h : OkLin a p) : Prop' (2 * a) p := fun s r v hr hl => by
  obtain ⟨-, h2⟩ := h s r v hr
  have : a * 1 ≤ a * (s.length - r.length) := Nat.mul_le_mul_left _ (by omega)
  have : 2 * a * (s.length - r.length) = 2 * (a * (s.length - r.length)) := Nat.mul_assoc ..
  omega

theorem OkLin.pure (v : α) : OkLin 0 (Pure.pure v : CParser α) := fun s r w h => by
  injection h with h1 _; subst h1; exact ⟨Nat.le_refl _, Nat.zero_le _⟩

theorem OkLin.bind {a b : Nat} {p : CParser α} {f : α → CParser β} (hp : OkLin a p) (hf : ∀ v, OkLin b (f v)) :
    OkLin (a + b) (p >>= f) := fun s r v h => by
  obtain ⟨t, w, h1, h2⟩ := bindP_eq_ok.1 (show (p.run >>= fun v => (f v).run) s = .ok r v from h)
  obtain ⟨h3, h4⟩ := hp _ _ _ h1
  obtain ⟨h5, h6⟩ := hf _ _ _ _ h2
  refine ⟨by omega, ?_⟩
  show p.cost s + _ ≤ _
  rw [h1]
  simp only
  have e1 : a * (s.length - t.length) ≤ a * (s.length - r.length) := Nat.mul_le_mul_left _ (by omega)
  have e2 : b * (t.length - r.length) ≤ b * (s.length - r.length) := Nat.mul_le_mul_left _ (by omega)
  rw [Nat.add_mul]
  omega

theorem Poly.okLin {a : Nat} {p : CParser α} (hp : Poly 0 a p) : OkLin a p := fun s r v h =>
  ⟨hp.shrink _ _ _ h, Nat.le_trans ((hp s.length).le s (Nat.le_refl _)) (by rw [Nat.pow_zero]; omega)⟩

theorem OkLin.takeWhile (f : Char → Bool) : OkLin 2 (takeWhileW f) := fun s r v h => by
  have h0 := (Poly.takeWhile f).shrink _ _ _ h
  injection h with h1 _
  refine ⟨h0, ?_⟩
  show 2 + (s.takeWhile f).length ≤ _
  have : (s.takeWhile f).length + (s.dropWhile f).length = s.length := by
    rw [← List.length_append, List.takeWhile_append_dropWhile]
  subst h1
  omega

theorem OkLin.takeUntil (t : Str) : OkLin (1 + t.length) (takeUntilW t) := fun s => by
  induction s with
  | nil =>
    intro r v h
    refine ⟨(Poly.takeUntil t).shrink _ _ _ h, ?_⟩
    show 1 + t.length ≤ _
    omega
  | cons c s ih =>
    intro r v h
    have h0 := (Poly.takeUntil t).shrink _ _ _ h
    refine ⟨h0, ?_⟩
    have h : Verif.takeUntil t (c :: s) = .ok r v := h
    show takeUntilCost t (c :: s) ≤ _
    rw [takeUntilCost]
    unfold Verif.takeUntil at h
    by_cases hp : t.isPrefixOf (c :: s) = true
    · rw [if_pos hp]; omega
    · rw [if_neg hp] at h ⊢
      obtain ⟨r', w, h1, h2⟩ := bind_eq_ok.1 h
      injection h2 with h3 _; subst h3
      obtain ⟨h4, h5⟩ := ih _ _ h1
      have h5 : takeUntilCost t s ≤ _ := h5
      have : (c :: s).length - r'.length = (s.length - r'.length) + 1 := by simp only [List.length_cons]; omega
      rw [this, Nat.mul_succ]
      omega

theorem eolW_poly {d : Nat} : Poly d 5 eolW := (Poly.orElse (.tag _) (.tag _)).mono (by decide)

theorem inlineComment_ok : OkLin 10 inlineCommentW :=
  (((Poly.tag _).okLin.bind fun _ => (OkLin.takeUntil _).bind fun _ => (Poly.tag _).okLin.bind fun _ => .pure _)).mono (by decide)
theorem hashComment_ok : OkLin 10 hashCommentW :=
  (((Poly.tag _).okLin.bind fun _ => (OkLin.takeWhile _).bind fun _ => eolW_poly.okLin.bind fun _ => .pure _)).mono (by decide)
theorem slashComment_ok : OkLin 10 slashCommentW :=
  (((Poly.tag _).okLin.bind fun _ => (OkLin.takeWhile _).bind fun _ => eolW_poly.okLin.bind fun _ => .pure _)).mono (by decide)

theorem inlineComment_poly : Poly 1 10 inlineCommentW :=
  (((Poly.tag _).bind fun _ => (Poly.takeUntil _).bind fun _ => (Poly.tag _).bind fun _ => .pure _)).mono (by decide)
theorem hashComment_poly : Poly 1 10 hashCommentW :=
  (((Poly.tag _).bind fun _ => (Poly.takeWhile _).bind fun _ => eolW_poly.bind fun _ => .pure _)).mono (by decide)
theorem slashComment_poly : Poly 1 10 slashCommentW :=
  (((Poly.tag _).bind fun _ => (Poly.takeWhile _).bind fun _ => eolW_poly.bind fun _ => .pure _)).mono (by decide)

/-- what it consumes begins with such a character -/
def First (P : Char → Prop) (p : Parser α) : Prop := ∀ s r v, p s = .ok r v → r.length < s.length → ∃ c cs, s = c :: cs ∧ P c

theorem First.orElse {P : Char → Prop} {p q : Parser α} (hp : First P p) (hq : First P q) : First P (p <//> q) := by
  intro s r v h hl
  rcases orElse_eq_ok.1 h with h | ⟨-, h⟩
  · exact hp _ _ _ h hl
  · exact hq _ _ _ h hl

theorem First.mono {P Q : Char → Prop} {p : Parser α} (hp : First P p) (h : ∀ c, P c → Q c) : First Q p := fun s r v hr hl => by
  obtain ⟨c, cs, e, hc⟩ := hp s r v hr hl
  exact ⟨c, cs, e, h c hc⟩

theorem First.tagBind {c : Char} {t : Str} {f : Str → Parser β} : First (· = c) (tag (c :: t) >>= f) := by
  intro s r v h _
  obtain ⟨_, _, h1, -⟩ := bindP_eq_ok.1 h
  unfold tag at h1
  split at h1
  · rename_i h2
    cases s with
    | nil => cases h2
    | cons d s =>
      simp [List.isPrefixOf] at h2
      exact ⟨d, s, rfl, h2.1.symm⟩
  · cases h1

theorem First.tag {c : Char} {t : Str} : First (· = c) (tag (c :: t)) := by
  intro s r v h1 _
  unfold Verif.tag at h1
  split at h1
  · rename_i h2
    cases s with
    | nil => cases h2
    | cons d s =>
      simp [List.isPrefixOf] at h2
      exact ⟨d, s, rfl, h2.1.symm⟩
  · cases h1

theorem First.takeWhile {f : Char → Bool} : First (f · = true) (takeWhile f) := by
  intro s r v h hl
  injection h with h1 _
  subst h1
  cases s with
  | nil => cases hl
  | cons c s =>
    refine ⟨c, s, rfl, ?_⟩
    cases hf : f c with
    | true => exact hf
    | false => simp [List.dropWhile, hf] at hl

/-- an alternative that gives up at the first characters -/
theorem Prop'.orElse {a b k : Nat} {P : Char → Prop} {p q : CParser α} (hp : Prop' a p) (hq : Prop' b q) (hf : First P q.run)
    (hk : ∀ c cs, P c → p.run (c :: cs) = .err → p.cost (c :: cs) ≤ k) : Prop' (a + b + k) (p <///> q) := by
  intro s r v h hl
  show p.cost s + _ ≤ _
  rcases orElse_eq_ok.1 (show (p.run <//> q.run) s = .ok r v from h) with h1 | ⟨h1, h2⟩
  · rw [h1]
    have := hp _ _ _ h1 hl
    simp only [Nat.add_mul]
    omega
  · rw [h1]
    have := hq _ _ _ h2 hl
    obtain ⟨c, cs, rfl, hc⟩ := hf _ _ _ h2 hl
    have := hk c cs hc h1
    have : k * 1 ≤ k * ((c :: cs).length - r.length) := Nat.mul_le_mul_left _ (by omega)
    simp only [Nat.add_mul]
    omega

private theorem cost_bind_err {p : CParser α} {f : α → CParser β} {s : Str} (h : p.run s = .err) :
    (p >>= f).cost s = p.cost s := by
  show p.cost s + (match p.run s with | .ok r v => (f v).cost r | _ => 0) = _
  rw [h]; rfl

private theorem tagBind_cost {c d : Char} {t cs : Str} {f : Str → CParser β} (h : c ≠ d) :
    (tagW (c :: t) >>= f).cost (d :: cs) ≤ 2 + t.length := by
  have e : tag (c :: t) (d :: cs) = .err := by
    unfold tag
    rw [if_neg]
    simp [List.isPrefixOf, h]
  rw [cost_bind_err e]
  show 1 + min _ _ ≤ _
  simp only [List.length_cons]
  omega

theorem Prop'.mono {a b : Nat} {p : CParser α} (h : Prop' a p) (hab : a ≤ b) : Prop' b p := fun s r v hr hl =>
  Nat.le_trans (h s r v hr hl) (Nat.mul_le_mul_right _ hab)

theorem inlineComment_first : First (· = '/') inlineCommentW.run := First.tagBind
theorem slashComment_first : First (· = '/') slashCommentW.run := First.tagBind

theorem inlineWsItem_prop : Prop' 30 (inlineCommentW <///> takeWhileW isBlank) := by
  have h := Prop'.orElse (k := 3) inlineComment_ok.prop (OkLin.takeWhile isBlank).prop First.takeWhile fun c cs hc _ =>
    tagBind_cost fun e => by subst e; revert hc; decide
  exact h.mono (by decide)

theorem inlineWs_poly : Poly 1 50 inlineWsW :=
  ((inlineComment_poly.orElse (Poly.takeWhile _)).many0Lin inlineWsItem_prop).mono (by decide)

/-- a comment to the end of the line before an alternative that begins with the same character -/
private theorem slash_cost {c : Char} {cs r v : Str} (h : inlineCommentW.run (c :: cs) = .ok r v) :
    slashCommentW.cost (c :: cs) ≤ 3 := by
  obtain ⟨t, w, h1, -⟩ := bindP_eq_ok.1 (show (tag ['/', '*'] >>= _) (c :: cs) = .ok r v from h)
  have e : tag ['/', '/'] (c :: cs) = .err := by
    unfold tag at h1 ⊢
    split at h1
    · rename_i h2
      rw [if_neg]
      intro h3
      cases cs with
      | nil => simp [List.isPrefixOf] at h2
      | cons d cs =>
        simp [List.isPrefixOf] at h2 h3
        rw [← h2.2] at h3
        exact absurd h3.2 (by decide)
    · cases h1
  unfold slashCommentW
  rw [cost_bind_err e]
  show 1 + min _ _ ≤ _
  simp only [List.length_cons, List.length_nil]
  omega

theorem slash_cost_prop {a : Nat} {q : CParser Str} (hq : Prop' a q)
    (h : ∀ s r v, q.run s = .ok r v → r.length < s.length → slashCommentW.cost s ≤ 3) : Prop' (23 + a) (slashCommentW <///> q) := by
  intro s r v hr hl
  show slashCommentW.cost s + _ ≤ _
  rcases orElse_eq_ok.1 (show (slashCommentW.run <//> q.run) s = .ok r v from hr) with h1 | ⟨h1, h2⟩
  · rw [h1]
    have := slashComment_ok.prop _ _ _ h1 hl
    simp only [Nat.add_mul]
    omega
  · rw [h1]
    have := hq _ _ _ h2 hl
    have := h _ _ _ h2 hl
    simp only [Nat.add_mul]
    omega

theorem wsItem_prop : Prop' 80 (hashCommentW <///> slashCommentW <///> inlineCommentW <///> takeWhileW isSpace) := by
  have h1 := Prop'.orElse (k := 3) inlineComment_ok.prop (OkLin.takeWhile isSpace).prop First.takeWhile fun c cs hc _ =>
    tagBind_cost fun e => by subst e; revert hc; decide
  have h2 := slash_cost_prop h1 fun s r v hr hl => by
    rcases orElse_eq_ok.1 (show (inlineCommentW.run <//> takeWhile isSpace) s = .ok r v from hr) with h | ⟨-, h⟩
    · obtain ⟨c, cs, rfl, -⟩ := inlineComment_first _ _ _ h hl
      exact slash_cost h
    · obtain ⟨c, cs, rfl, hc⟩ := First.takeWhile _ _ _ h hl
      exact tagBind_cost fun e => by subst e; revert hc; decide
  have hf : First (fun c => c = '/' ∨ isSpace c = true) (slashCommentW <///> inlineCommentW <///> takeWhileW isSpace).run :=
    (slashComment_first.mono fun _ h => .inl h).orElse
      ((inlineComment_first.mono fun _ h => .inl h).orElse (First.takeWhile.mono fun _ h => .inr h))
  have h3 := Prop'.orElse (k := 2) hashComment_ok.prop h2 hf fun c cs hc _ =>
    tagBind_cost fun e => by subst e; revert hc; decide
  exact h3.mono (by decide)

theorem ws_poly : Poly 1 120 wsW :=
  ((hashComment_poly.orElse (slashComment_poly.orElse (inlineComment_poly.orElse (Poly.takeWhile _)))).many0Lin
    wsItem_prop).mono (by decide)

theorem eol_first : First (fun c => c = '\n' ∨ c = '\r') eolW.run :=
  (First.tag.mono fun _ h => .inl h).orElse (First.tag.mono fun _ h => .inr h)

theorem inlineEol_first : First (· = '/') (do let c ← inlineCommentW; let _ ← eolW; pure c : CParser Str).run := by
  intro s r v h hl
  obtain ⟨t, w, h1, h2⟩ := bindP_eq_ok.1 (show (inlineCommentW.run >>= _) s = .ok r v from h)
  have h3 : Consumes s t := by
    obtain ⟨h3, -⟩ := inlineComment_eq_ok.1 (show inlineComment s = .ok t w from h1)
    exact ⟨'/' :: '*' :: (w ++ ['*', '/']), by simp, by simp [h3]⟩
  exact inlineComment_first _ _ _ h1 h3.length

theorem inlineEol_cost {c : Char} {cs : Str} (h : c ≠ '/') :
    (do let c ← inlineCommentW; let _ ← eolW; pure c : CParser Str).cost (c :: cs) ≤ 3 := by
  have e : inlineComment (c :: cs) = .err := by
    have : tag ['/', '*'] (c :: cs) = .err := by
      unfold tag
      rw [if_neg]
      simp [List.isPrefixOf, Ne.symm h]
    show (tag ['/', '*'] (c :: cs)).bind _ = _
    rw [this]; rfl
  rw [cost_bind_err e]
  exact tagBind_cost (Ne.symm h)

theorem newlineItem_prop : Prop' 150 newlineItemW := by
  have h1 := Prop'.orElse (k := 3) ((inlineComment_ok.bind fun c => eolW_poly.okLin.bind fun _ => OkLin.pure c).prop)
    (eolW_poly.okLin).prop eol_first fun c cs hc _ => inlineEol_cost (fun e => by subst e; revert hc; decide)
  have h2 := slash_cost_prop h1 fun s r v hr hl => by
    rcases orElse_eq_ok.1 (show (_ <//> eol) s = .ok r v from hr) with h | ⟨-, h⟩
    · obtain ⟨c, cs, rfl, -⟩ := inlineEol_first _ _ _ h hl
      obtain ⟨t, w, h1, h2⟩ := bindP_eq_ok.1 (show (inlineCommentW.run >>= _) (c :: cs) = .ok r v from h)
      exact slash_cost h1
    · obtain ⟨c, cs, rfl, hc⟩ := eol_first _ _ _ h hl
      exact tagBind_cost fun e => by subst e; revert hc; decide
  have hf : First (fun c => c = '/' ∨ c = '\n' ∨ c = '\r')
      (slashCommentW <///> (do let c ← inlineCommentW; let _ ← eolW; pure c) <///> eolW).run :=
    (slashComment_first.mono fun _ h => .inl h).orElse
      ((inlineEol_first.mono fun _ h => .inl h).orElse (eol_first.mono fun _ h => .inr h))
  have h3 := Prop'.orElse (k := 2) hashComment_ok.prop h2 hf fun c cs hc _ =>
    tagBind_cost fun e => by subst e; revert hc; decide
  exact h3.mono (by decide)

theorem newlineItem_poly : Poly 1 50 newlineItemW :=
  (hashComment_poly.orElse (slashComment_poly.orElse
    ((inlineComment_poly.bind fun _ => eolW_poly.bind fun _ => .pure _).orElse eolW_poly))).mono (by decide)

theorem newline_poly : Poly 1 250 newlineW := (newlineItem_poly.many1Lin newlineItem_prop).mono (by decide)

theorem Poly.inlineWsAround {d a : Nat} {p : CParser α} (hd : 1 ≤ d) (hp : Poly d a p) : Poly d (100 + a) (inlineWsAroundW p) :=
  ((inlineWs_poly.up hd).bind fun _ => hp.bind fun _ => (inlineWs_poly.up hd).bind fun _ => .pure _).mono (by omega)

theorem Poly.wsAround {d a : Nat} {p : CParser α} (hd : 1 ≤ d) (hp : Poly d a p) : Poly d (240 + a) (wsAroundW p) :=
  ((ws_poly.up hd).bind fun _ => hp.bind fun _ => (ws_poly.up hd).bind fun _ => .pure _).mono (by omega)

/-! ## tokens -/

theorem identifier_poly (U : CharClass) : Poly 1 3 (identifierW U) := ((Poly.takeWhile1 _).verify).mono (by decide)

theorem boolean_poly : Poly 1 20 booleanW := ((Poly.tag _).map.orElse (Poly.tag _).map).mono (by decide)
theorem null_poly : Poly 1 10 nullW := ((Poly.tag _).map).mono (by decide)

theorem hexArm_poly (k : Char) (n : Nat) : Poly 0 (n + 12) (hexArmW k n) :=
  (((Poly.tag _).bind fun _ => Poly.takeWhileMN _ _ _).mapRes).mono (by simp; omega)

theorem hexToUnicode_poly : Poly 0 50 hexToUnicodeW :=
  (((hexArm_poly _ _).orElse ((hexArm_poly _ _).orElse (hexArm_poly _ _))).returnError).mono (by decide)

theorem unescape_poly : Poly 0 100 unescapeW :=
  ((Poly.tag _).map.orElse <| (Poly.tag _).map.orElse <| (Poly.tag _).map.orElse <| (Poly.tag _).map.orElse <|
    (Poly.tag _).map.orElse <| (Poly.tag _).map.orElse <| (Poly.tag _).map.orElse <| (Poly.tag _).map.orElse <|
    (Poly.tag _).map.orElse <| (Poly.tag _).map.orElse <| (Poly.takeWhileMN _ _ _).mapRes.orElse hexToUnicode_poly).mono (by decide)

theorem escapedAux_shrinks {normal : Char → Bool} {un : Parser Str} : ∀ n, Shrinks (escapedAux normal un n) := by
  intro n
  induction n with
  | zero => intro s r v h; cases h
  | succ n ih =>
    intro s r v h
    unfold escapedAux at h
    split at h
    · injection h with h1 _; subst h1; exact Nat.le_refl _
    · rename_i c cs
      split at h
      · rename_i t w ht
        obtain ⟨_, h1, -⟩ := map_eq_ok.1 h
        have := ih _ _ _ h1
        have := (Poly.takeWhile1 normal).shrink _ _ _ ht
        omega
      · split at h
        · split at h
          · cases h
          · obtain ⟨t, w, -, h1⟩ := bind_eq_ok.1 h
            split at h1
            · obtain ⟨_, h1, -⟩ := map_eq_ok.1 h1
              have := ih _ _ _ h1
              simp only [List.length_cons] at *
              omega
            · cases h1
        · injection h with h1 _; subst h1; exact Nat.le_refl _

private theorem tw_length (f : Char → Bool) (s : Str) : (s.takeWhile f).length + (s.dropWhile f).length = s.length := by
  rw [← List.length_append, List.takeWhile_append_dropWhile]

theorem escapedCost_le {k : Nat} {normal : Char → Bool} {un : CParser Str} (hu : ∀ s, un.cost s ≤ k) : ∀ (n : Nat) (s : Str),
    escapedCost normal un n s ≤ (k + 6) * s.length + (k + 6) := by
  intro n
  induction n with
  | zero => intro s; exact Nat.zero_le _
  | succ n ih =>
    intro s
    unfold escapedCost
    split
    · omega
    · rename_i c cs
      have hl := tw_length normal (c :: cs)
      cases ht : takeWhile1 normal (c :: cs) with
      | ok r v =>
        dsimp only
        have ih := ih r
        unfold takeWhile1 at ht
        split at ht
        · cases ht
        · rename_i hne
          injection ht with h1 _
          subst h1
          have h2 : 1 ≤ ((c :: cs).takeWhile normal).length := by
            cases hw : (c :: cs).takeWhile normal with
            | nil => rw [hw] at hne; exact absurd rfl hne
            | cons => simp
          rw [← hl, Nat.mul_add]
          have h3 : 4 * ((c :: cs).takeWhile normal).length ≤ (k + 6) * ((c :: cs).takeWhile normal).length :=
            Nat.mul_le_mul_right _ (by omega)
          omega
      | err =>
        dsimp only
        have h0 : (c :: cs).takeWhile normal = [] := by
          unfold takeWhile1 at ht
          split at ht
          · rename_i he; simpa using he
          · cases ht
        rw [h0]
        have hk : k + 6 ≤ (k + 6) * (c :: cs).length := Nat.le_mul_of_pos_right _ (by simp)
        split
        · split
          · simp only [List.length_nil]; omega
          · have := hu cs
            split
            · split
              · rename_i r v _ hr
                have := ih r
                have h4 : (k + 6) * (r.length + 1) ≤ (k + 6) * cs.length := Nat.mul_le_mul_left _ hr
                rw [Nat.mul_succ] at h4
                simp only [List.length_cons, Nat.mul_succ] at *
                show 2 + 2 * 0 + (un.cost cs + (4 + escapedCost normal un n r)) ≤ _
                omega
              · show 2 + 2 * 0 + (un.cost cs + 0) ≤ _
                omega
            · show 2 + 2 * 0 + (un.cost cs + 0) ≤ _
              omega
        · simp only [List.length_nil]; omega
      | fail t => unfold takeWhile1 at ht; split at ht <;> cases ht
      | panic => unfold takeWhile1 at ht; split at ht <;> cases ht
      | diverge => unfold takeWhile1 at ht; split at ht <;> cases ht

theorem escaped_poly (normal : Char → Bool) : Poly 1 106 (escapedTransformW normal unescapeW) := fun n =>
  ⟨fun s r v h => escapedAux_shrinks _ s r v h, fun s hs => by
    have := escapedCost_le (normal := normal) (fun s => by simpa using (unescape_poly s.length).le s (Nat.le_refl _)) (s.length + 1) s
    show escapedCost normal unescapeW (s.length + 1) s ≤ _
    rw [Nat.pow_one]
    omega⟩

theorem quotedString_poly : Poly 1 120 quotedStringW :=
  ((Poly.tag _).bind fun _ => (escaped_poly _).bind fun _ => (Poly.tag _).bind fun _ => .pure _).mono (by decide)
theorem stringLiteral_poly : Poly 1 120 stringLiteralW :=
  ((Poly.tag _).bind fun _ => (escaped_poly _).bind fun _ => (Poly.tag _).bind fun _ => .pure _).mono (by decide)

theorem heredocBegin_poly (U : CharClass) : Poly 1 20 (heredocBeginW U) :=
  ((Poly.tag _).bind fun _ => (Poly.tag _).opt.bind fun _ => (Poly.takeWhile1 _).bind fun _ =>
    eolW_poly.peek.bind fun _ => .pure _).mono (by decide)

theorem heredocEnd_poly (h : HereDoc) : Poly 1 20 (heredocEndW h) :=
  (eolW_poly.bind fun _ => (Poly.takeWhile _).bind fun _ => (Poly.tag' _).bind fun _ => eolW_poly.peek.bind fun _ =>
    .pure _).mono (by decide)

theorem takeTillMatch_length {p : Parser α} (hp : Shrinks p) : ∀ (s r : Str) (v : Str × α), takeTillMatch p s = .ok r v →
    r.length ≤ s.length ∧ v.1.length ≤ s.length
  | [], _, _, h => by cases h
  | c :: s, r, v, h => by
    unfold takeTillMatch at h
    split at h
    · rename_i hx
      injection h with h1 h2; subst h1 h2
      exact ⟨hp _ _ _ hx, Nat.zero_le _⟩
    · cases h
    · cases h
    all_goals
      obtain ⟨r', w, h1, h2⟩ := bind_eq_ok.1 h
      injection h2 with h3 h4; subst h3 h4
      obtain ⟨h5, h6⟩ := takeTillMatch_length hp s _ _ h1
      simp only [List.length_cons]
      omega

theorem takeTillMatchCost_le {n a : Nat} {p : CParser α} (hp : Leaf n a p) : ∀ s : Str, s.length ≤ n →
    takeTillMatchCost p s ≤ (a + 1) * (s.length + 1)
  | [], _ => by simp [takeTillMatchCost]
  | c :: s, hs => by
    rw [takeTillMatchCost]
    have h1 := takeTillMatchCost_le hp s (by simp only [List.length_cons] at hs; omega)
    have h2 := hp.le _ hs
    simp only [List.length_cons]
    rw [Nat.mul_succ (a + 1) (s.length + 1)]
    split <;> omega

theorem Poly.takeTillMatch {a : Nat} {p : CParser α} (hp : Poly 1 a p) : Poly 2 (a + 1) (takeTillMatchW p) := fun n =>
  ⟨fun s r v h => (takeTillMatch_length hp.shrink s r v h).1, fun s hs => by
    refine Nat.le_trans (takeTillMatchCost_le (hp n) s hs) ?_
    have h1 : (a * (n + 1) ^ 1 + 1) ≤ (a + 1) * (n + 1) := by rw [Nat.pow_one, Nat.succ_mul]; omega
    have h2 := Nat.mul_le_mul h1 (Nat.succ_le_succ hs)
    have e : (n + 1) ^ 2 = (n + 1) * (n + 1) := by rw [Nat.pow_succ, Nat.pow_one]
    rw [e, ← Nat.mul_assoc]
    exact h2⟩

theorem heredocContent_poly (h : HereDoc) : Poly 2 50 (heredocContentW h) :=
  (((heredocEnd_poly h).up (by decide)).map.orElse (eolW_poly.bind fun _ => (heredocEnd_poly h).takeTillMatch)).mono (by decide)

theorem heredocContent_length {h : HereDoc} {s r : Str} {c : Str × Nat} (hr : (heredocContentW h).run s = .ok r c) :
    c.1.length ≤ s.length := by
  rcases orElse_eq_ok.1 (show (mapP _ (heredocEnd h) <//> _) s = .ok r c from hr) with h1 | ⟨-, h1⟩
  · obtain ⟨w, -, rfl⟩ := mapP_eq_ok.1 h1
    exact Nat.zero_le _
  · obtain ⟨t, w, h2, h3⟩ := bindP_eq_ok.1 (show (eolW.run >>= _) s = .ok r c from h1)
    have := (eolW_poly (d := 0)).shrink _ _ _ h2
    have := (takeTillMatch_length (heredocEnd_poly h).shrink _ _ _ h3).2
    omega

theorem heredocFinish_shrinks (c : Str × Nat) : Shrinks (heredocFinish c) := fun s r v h => by
  unfold heredocFinish at h
  split at h
  · injection h with h1 _; subst h1; exact Nat.le_refl _
  · cases h

theorem heredocString_poly (U : CharClass) : Poly 2 100 (heredocStringW U) := fun n => by
  have h0 := ((heredocBegin_poly U).up (d' := 2) (by decide)) n
  have h1 : ∀ h : HereDoc, Leaf n (50 * (n + 1) ^ 2 + (1 + 4 * (n + 1))) (heredocContentW h >>= heredocFinishW) := fun h =>
    (heredocContent_poly h n).bindWith heredocFinish_shrinks fun s r v hs hr => by
      have := heredocContent_length hr
      show 1 + 4 * (v.1.length + 1) ≤ _
      omega
  refine (h0.bind h1).mono ?_
  have : 1 * (n + 1) ≤ (n + 1) * (n + 1) := Nat.mul_le_mul_right _ (by omega)
  rw [Nat.pow_succ, Nat.pow_one]
  omega

theorem string_poly (U : CharClass) : Poly 2 250 (stringW U) :=
  ((quotedString_poly.up (by decide)).map.orElse (heredocString_poly U)).mono (by decide)

theorem numSign_poly {d : Nat} : Poly d 5 numSignW := (((Poly.tag _).orElse (Poly.tag _)).opt.map).mono (by decide)
theorem digit_poly : Poly 1 2 digitW := Poly.takeWhile1 _
theorem mantissa_poly : Poly 1 20 mantissaW :=
  ((digit_poly.bind fun _ => ((Poly.tag _).bind fun _ => digit_poly.opt).opt.bind fun _ => .pure _).orElse
    ((Poly.tag _).bind fun _ => digit_poly.bind fun _ => .pure _)).mono (by decide)
theorem exponent_poly : Poly 1 20 exponentW :=
  ((((Poly.tag _).orElse (Poly.tag _)).bind fun _ => numSign_poly.bind fun _ => digit_poly.bind fun _ => .pure _).opt).mono
    (by decide)

theorem number_poly : Poly 1 50 numberW := fun n =>
  ⟨fun s r v h => Nat.le_of_lt (numberTok_consumes (number_iff.1 h)).length,
   (((numSign_poly.bind fun _ => mantissa_poly.bind fun _ => exponent_poly.bind fun _ => .pure ()).mono (by decide) :
      Poly 1 50 _) n).le⟩

theorem blockLabel_poly (U : CharClass) : Poly 1 130 (blockLabelW U) :=
  ((identifier_poly U).map.orElse stringLiteral_poly.map).mono (by decide)

theorem blockLabels_poly (U : CharClass) : Poly 2 230 (blockLabelsW U) :=
  (((blockLabel_poly U).inlineWsAround (by decide)).many0).mono (by decide)

end
end Verif
