import Verif.Proofs.WorkAmort
/-! # Every character of what is accepted is looked at -/
set_option autoImplicit false

namespace Verif
open PRes Spec CParser

section
variable {α β : Type}

/-- where it succeeds, it makes at least as many steps as it consumes characters -/
def Reads (w : CParser α) : Prop := ∀ s r v, w.run s = .ok r v → s.length ≤ w.cost s + r.length

theorem Reads.pure (v : α) : Reads (Pure.pure v : CParser α) := fun s r w h => by
  injection h with h1 _; subst h1; exact Nat.le_add_left _ _

theorem Reads.bind {p : CParser α} {f : α → CParser β} (hp : Reads p) (hf : ∀ v, Reads (f v)) : Reads (p >>= f) := by
  intro s r v h
  obtain ⟨t, w, h1, h2⟩ := bindP_eq_ok.1 (show (p.run >>= fun v => (f v).run) s = .ok r v from h)
  have := hp _ _ _ h1
  have := hf _ _ _ _ h2
  rw [cost_bind_ok h1]
  omega

theorem Reads.orElse {p q : CParser α} (hp : Reads p) (hq : Reads q) : Reads (p <///> q) := by
  intro s r v h
  show _ ≤ p.cost s + _ + _
  rcases orElse_eq_ok.1 (show (p.run <//> q.run) s = .ok r v from h) with h1 | ⟨h1, h2⟩
  · have := hp _ _ _ h1
    omega
  · have := hq _ _ _ h2
    rw [h1]
    show _ ≤ p.cost s + q.cost s + _
    omega

theorem Reads.map {g : α → β} {p : CParser α} (hp : Reads p) : Reads (CParser.map g p) := by
  intro s r v h
  obtain ⟨w, h, -⟩ := mapP_eq_ok.1 (show mapP g p.run s = .ok r v from h)
  exact hp _ _ _ h

theorem Reads.opt {p : CParser α} (hp : Reads p) : Reads (CParser.opt p) := by
  intro s r v h
  have h : Verif.opt p.run s = .ok r v := h
  unfold Verif.opt at h
  cases hx : p.run s with
  | ok r' w => rw [hx] at h; injection h with h1 _; subst h1; exact hp _ _ _ hx
  | err => rw [hx] at h; injection h with h1 _; subst h1; exact Nat.le_add_left _ _
  | fail t => rw [hx] at h; cases h
  | panic => rw [hx] at h; cases h
  | diverge => rw [hx] at h; cases h

theorem Reads.peek (p : CParser α) : Reads (CParser.peek p) := by
  intro s r v h
  obtain ⟨t, w, -, h⟩ := bind_eq_ok.1 (show (p.run s).bind (fun _ v => .ok s v) = .ok r v from h)
  injection h with h1 _; subst h1; exact Nat.le_add_left _ _

theorem Reads.recognize {p : CParser α} (hp : Reads p) : Reads (CParser.recognize p) := by
  intro s r v h
  obtain ⟨t, w, h1, h2⟩ := bind_eq_ok.1 (show (p.run s).bind _ = .ok r v from h)
  injection h2 with h3 _; subst h3
  exact hp _ _ _ h1

theorem Reads.verify {g : α → Bool} {p : CParser α} (hp : Reads p) : Reads (CParser.verify p g) := by
  intro s r v h
  obtain ⟨t, w, h1, h⟩ := bind_eq_ok.1 (show (p.run s).bind (fun r v => if g v then PRes.ok r v else .err) = .ok r v from h)
  split at h
  · injection h with h2 _; subst h2
    have := hp _ _ _ h1
    show _ ≤ p.cost s + 1 + _
    omega
  · cases h

theorem Reads.mapRes {k : Nat} {g : α → Option β} {p : CParser α} (hp : Reads p) : Reads (CParser.mapRes k p g) := by
  intro s r v h
  obtain ⟨t, w, h1, h⟩ := bind_eq_ok.1 (show (p.run s).bind _ = .ok r v from h)
  cases hg : g w with
  | some u =>
    rw [hg] at h; injection h with h2 _; subst h2
    have := hp _ _ _ h1
    show _ ≤ p.cost s + k + _
    omega
  | none => rw [hg] at h; cases h

theorem Reads.returnError {p : CParser α} (hp : Reads p) : Reads (CParser.returnError p) := by
  intro s r v h
  have h : Verif.returnError p.run s = .ok r v := h
  unfold Verif.returnError at h
  cases hx : p.run s with
  | ok r' w => rw [hx] at h; injection h with h1 _; subst h1; exact hp _ _ _ hx
  | err => rw [hx] at h; cases h
  | fail t => rw [hx] at h; cases h
  | panic => rw [hx] at h; cases h
  | diverge => rw [hx] at h; cases h

private theorem many0_reads {p : CParser α} (hp : Reads p) : ∀ (n : Nat) (s r : Str) (v : List α),
    Verif.many0Aux p.run n s = .ok r v → s.length ≤ many0Cost p n s + r.length := by
  intro n
  induction n with
  | zero => intro s r v h; cases h
  | succ n ih =>
    intro s r v h
    rw [Verif.many0Aux] at h
    dsimp only at h
    rw [many0Cost]
    cases hx : p.run s with
    | ok r' w =>
      rw [hx] at h
      simp only at h
      have := hp _ _ _ hx
      show _ ≤ p.cost s + (if r'.length < s.length then many0Cost p n r' else 0) + r.length
      split at h
      · rename_i hl
        obtain ⟨u, h1, -⟩ := map_eq_ok.1 h
        have := ih _ _ _ h1
        rw [if_pos hl]
        omega
      · injection h with h1 _; subst h1; omega
    | err => rw [hx] at h; injection h with h1 _; subst h1; exact Nat.le_add_left _ _
    | fail t => rw [hx] at h; cases h
    | panic => rw [hx] at h; cases h
    | diverge => rw [hx] at h; cases h

theorem Reads.many0 {p : CParser α} (hp : Reads p) : Reads (CParser.many0 p) := fun s r v h => many0_reads hp _ s r v h

theorem Reads.many1 {p : CParser α} (hp : Reads p) : Reads (CParser.many1 p) := by
  intro s r v h
  obtain ⟨t, w, h1, h⟩ := bind_eq_ok.1 (show (p.run s).bind (fun r v => (Verif.many0 p.run r).map (v :: ·)) = .ok r v from h)
  obtain ⟨u, h2, -⟩ := map_eq_ok.1 h
  have := hp _ _ _ h1
  have := hp.many0 _ _ _ h2
  show _ ≤ p.cost s + _ + _
  rw [h1]
  show _ ≤ p.cost s + (CParser.many0 p).cost t + _
  omega

private theorem sepTail_reads {sep : CParser β} {p : CParser α} (hs : Reads sep) (hp : Reads p) :
    ∀ (n : Nat) (s r : Str) (v : List α), sepTailAux sep.run p.run n s = .ok r v →
      s.length ≤ sepTailWork sep p n s + r.length := by
  intro n
  induction n with
  | zero => intro s r v h; cases h
  | succ n ih =>
    intro s r v h
    unfold sepTailAux at h
    rw [sepTailWork]
    cases hx : sep.run s with
    | ok r' w =>
      rw [hx] at h
      dsimp only at h
      show _ ≤ sep.cost s + (p.cost r' + match p.run r' with
          | .ok r' _ => if r'.length < s.length then sepTailWork sep p n r' else 0
          | _ => 0) + r.length
      have := hs _ _ _ hx
      cases hy : p.run r' with
      | ok r'' u =>
        rw [hy] at h
        dsimp only at h
        have := hp _ _ _ hy
        show _ ≤ sep.cost s + (p.cost r' + if r''.length < s.length then sepTailWork sep p n r'' else 0) + r.length
        split at h
        · rename_i hl
          obtain ⟨_, h1, -⟩ := map_eq_ok.1 h
          have := ih _ _ _ h1
          rw [if_pos hl]
          omega
        · cases h
      | err => rw [hy] at h; injection h with h1 _; subst h1; exact Nat.le_add_left _ _
      | fail t => rw [hy] at h; cases h
      | panic => rw [hy] at h; cases h
      | diverge => rw [hy] at h; cases h
    | err => rw [hx] at h; injection h with h1 _; subst h1; exact Nat.le_add_left _ _
    | fail t => rw [hx] at h; cases h
    | panic => rw [hx] at h; cases h
    | diverge => rw [hx] at h; cases h

theorem Reads.separatedList {sep : CParser β} {p : CParser α} (hs : Reads sep) (hp : Reads p) : Reads (separatedListW sep p) := by
  intro s r v h
  have h : Verif.separatedList sep.run p.run s = .ok r v := h
  show _ ≤ p.cost s + _ + _
  unfold Verif.separatedList at h
  cases hx : p.run s with
  | ok r' w =>
    rw [hx] at h
    dsimp only at h
    have := hp _ _ _ hx
    show _ ≤ p.cost s + (if r'.length < s.length then sepTailWork sep p (r'.length + 1) r' else 0) + r.length
    split at h
    · rename_i hl
      obtain ⟨_, h1, -⟩ := map_eq_ok.1 h
      have := sepTail_reads hs hp _ _ _ _ h1
      rw [if_pos hl]
      omega
    · cases h
  | err => rw [hx] at h; injection h with h1 _; subst h1; exact Nat.le_add_left _ _
  | fail t => rw [hx] at h; cases h
  | panic => rw [hx] at h; cases h
  | diverge => rw [hx] at h; cases h

theorem Reads.call {p : CParser α} (hp : Reads p) : Reads (CParser.call p) := fun s r v h => by
  have := hp s r v h
  show _ ≤ 1 + p.cost s + _
  omega

/-! ## primitives -/

theorem Reads.tag (t : Str) : Reads (tagW t) := by
  intro s r v h
  have h : Verif.tag t s = .ok r v := h
  unfold Verif.tag at h
  split at h
  · injection h with h1 _; subst h1
    show _ ≤ 1 + min t.length s.length + (s.drop t.length).length
    rw [List.length_drop]
    omega
  · cases h

theorem Reads.eof : Reads eofW := fun s r v h => by rw [(eof_eq_ok.1 h).1]; exact Nat.zero_le _

private theorem tw_length' (f : Char → Bool) (s : Str) : (s.takeWhile f).length + (s.dropWhile f).length = s.length := by
  rw [← List.length_append, List.takeWhile_append_dropWhile]

theorem Reads.takeWhile (f : Char → Bool) : Reads (takeWhileW f) := fun s r v h => by
  injection h with h1 _; subst h1
  have := tw_length' f s
  show _ ≤ 2 + (s.takeWhile f).length + _
  omega

theorem Reads.takeWhile1 (f : Char → Bool) : Reads (takeWhile1W f) := fun s r v h => by
  have h : Verif.takeWhile1 f s = .ok r v := h
  unfold Verif.takeWhile1 at h
  split at h
  · cases h
  · injection h with h1 _; subst h1
    have := tw_length' f s
    show _ ≤ 2 + (s.takeWhile f).length + _
    omega

theorem Reads.takeWhileMN (m k : Nat) (f : Char → Bool) : Reads (takeWhileMNW m k f) := fun s r v h => by
  have h : Verif.takeWhileMN m k f s = .ok r v := h
  unfold Verif.takeWhileMN at h
  simp only at h
  split at h
  · cases h
  · injection h with h1 _; subst h1
    show _ ≤ 2 + ((s.take k).takeWhile f).length + _
    rw [List.length_drop]
    omega

theorem takeUntil_reads (t : Str) : ∀ s r v : Str, takeUntil t s = .ok r v → s.length ≤ takeUntilCost t s + r.length
  | [], _, _, _ => Nat.zero_le _
  | c :: s, r, v, h => by
    rw [takeUntilCost]
    unfold takeUntil at h
    by_cases hp : t.isPrefixOf (c :: s) = true
    · rw [if_pos hp] at h; injection h with h1 _; subst h1; exact Nat.le_add_left _ _
    · rw [if_neg hp] at h ⊢
      obtain ⟨r', w, h1, h2⟩ := bind_eq_ok.1 h
      injection h2 with h3 _; subst h3
      have := takeUntil_reads t s _ _ h1
      simp only [List.length_cons]
      omega

theorem Reads.takeUntil (t : Str) : Reads (takeUntilW t) := takeUntil_reads t

/-! ## layout and tokens -/

theorem eol_reads : Reads eolW := (Reads.tag _).orElse (.tag _)
theorem inlineComment_reads : Reads inlineCommentW :=
  (Reads.tag _).bind fun _ => (Reads.takeUntil _).bind fun _ => (Reads.tag _).bind fun _ => .pure _
theorem hashComment_reads : Reads hashCommentW :=
  (Reads.tag _).bind fun _ => (Reads.takeWhile _).bind fun _ => eol_reads.bind fun _ => .pure _
theorem slashComment_reads : Reads slashCommentW :=
  (Reads.tag _).bind fun _ => (Reads.takeWhile _).bind fun _ => eol_reads.bind fun _ => .pure _
theorem inlineWs_reads : Reads inlineWsW := (inlineComment_reads.orElse (.takeWhile _)).many0
theorem ws_reads : Reads wsW :=
  (hashComment_reads.orElse (slashComment_reads.orElse (inlineComment_reads.orElse (.takeWhile _)))).many0
theorem newline_reads : Reads newlineW :=
  (hashComment_reads.orElse (slashComment_reads.orElse
    ((inlineComment_reads.bind fun _ => eol_reads.bind fun _ => .pure _).orElse eol_reads))).many1
theorem Reads.wsAround {p : CParser α} (hp : Reads p) : Reads (wsAroundW p) :=
  ws_reads.bind fun _ => hp.bind fun _ => ws_reads.bind fun _ => .pure _
theorem Reads.inlineWsAround {p : CParser α} (hp : Reads p) : Reads (inlineWsAroundW p) :=
  inlineWs_reads.bind fun _ => hp.bind fun _ => inlineWs_reads.bind fun _ => .pure _

theorem identifier_reads (U : CharClass) : Reads (identifierW U) := (Reads.takeWhile1 _).verify
theorem boolean_reads : Reads booleanW := (Reads.tag _).map.orElse (Reads.tag _).map
theorem null_reads : Reads nullW := (Reads.tag _).map
theorem hexArm_reads (k : Char) (n : Nat) : Reads (hexArmW k n) := ((Reads.tag _).bind fun _ => .takeWhileMN _ _ _).mapRes
theorem unescape_reads : Reads unescapeW :=
  (Reads.tag _).map.orElse <| (Reads.tag _).map.orElse <| (Reads.tag _).map.orElse <| (Reads.tag _).map.orElse <|
    (Reads.tag _).map.orElse <| (Reads.tag _).map.orElse <| (Reads.tag _).map.orElse <| (Reads.tag _).map.orElse <|
    (Reads.tag _).map.orElse <| (Reads.tag _).map.orElse <| (Reads.takeWhileMN _ _ _).mapRes.orElse
      ((hexArm_reads _ _).orElse ((hexArm_reads _ _).orElse (hexArm_reads _ _))).returnError

theorem escaped_reads {normal : Char → Bool} {un : CParser Str} (hu : Reads un) : ∀ (n : Nat) (s r v : Str),
    escapedAux normal un.run n s = .ok r v → s.length ≤ escapedCost normal un n s + r.length := by
  intro n
  induction n with
  | zero => intro s r v h; cases h
  | succ n ih =>
    intro s r v h
    unfold escapedAux at h
    unfold escapedCost
    cases s with
    | nil => exact Nat.zero_le _
    | cons c cs =>
      cases hx : takeWhile1 normal (c :: cs) with
      | ok t w =>
        have h : (escapedAux normal un.run n t).map (w ++ ·) = .ok r v := by simpa only [hx] using h
        obtain ⟨_, h1, -⟩ := map_eq_ok.1 h
        have h5 := ih _ _ _ h1
        have h3 := tw_length' normal (c :: cs)
        simp only [hx]
        unfold takeWhile1 at hx
        split at hx
        · cases hx
        · injection hx with h4 _
          subst h4
          omega
      | err =>
        by_cases hc : (c == '\\') = true
        · cases cs with
          | nil => simp [hx, hc] at h
          | cons d ds =>
            have h : (un.run (d :: ds)).bind (fun r v =>
                  if r.length < (d :: ds).length then (escapedAux normal un.run n r).map (v ++ ·) else .err) = .ok r v := by
              simpa only [hx, hc, if_true] using h
            obtain ⟨t, w, h1, h2⟩ := bind_eq_ok.1 h
            split at h2
            · rename_i hl
              obtain ⟨_, h2, -⟩ := map_eq_ok.1 h2
              have h5 := ih _ _ _ h2
              have h6 := hu _ _ _ h1
              simp only [hx, hc, if_true, h1]
              rw [if_pos hl]
              show _ ≤ 2 + 2 * ((c :: d :: ds).takeWhile normal).length + (un.cost (d :: ds) + (4 + escapedCost normal un n t)) + _
              simp only [List.length_cons] at *
              omega
            · cases h2
        · have h : PRes.ok (c :: cs) [] = .ok r v := by simpa [hx, hc] using h
          injection h with h1 _; subst h1
          exact Nat.le_add_left _ _
      | fail t => unfold takeWhile1 at hx; split at hx <;> cases hx
      | panic => unfold takeWhile1 at hx; split at hx <;> cases hx
      | diverge => unfold takeWhile1 at hx; split at hx <;> cases hx

theorem Reads.escaped (normal : Char → Bool) : Reads (escapedTransformW normal unescapeW) :=
  fun s r v h => escaped_reads unescape_reads _ s r v h

theorem quotedString_reads : Reads quotedStringW :=
  (Reads.tag _).bind fun _ => (Reads.escaped _).bind fun _ => (Reads.tag _).bind fun _ => .pure _
theorem stringLiteral_reads : Reads stringLiteralW :=
  (Reads.tag _).bind fun _ => (Reads.escaped _).bind fun _ => (Reads.tag _).bind fun _ => .pure _

theorem heredocBegin_reads (U : CharClass) : Reads (heredocBeginW U) :=
  (Reads.tag _).bind fun _ => (Reads.tag _).opt.bind fun _ => (Reads.takeWhile1 _).bind fun _ =>
    (Reads.peek _).bind fun _ => .pure _
theorem heredocEnd_reads (h : HereDoc) : Reads (heredocEndW h) :=
  eol_reads.bind fun _ => (Reads.takeWhile _).bind fun _ => (Reads.tag _).bind fun _ => (Reads.peek _).bind fun _ => .pure _

theorem takeTillMatch_reads {p : CParser α} (hp : Reads p) : ∀ (s r : Str) (v : Str × α), takeTillMatch p.run s = .ok r v →
    s.length ≤ takeTillMatchCost p s + r.length
  | [], _, _, _ => Nat.zero_le _
  | c :: s, r, v, h => by
    rw [takeTillMatchCost]
    unfold takeTillMatch at h
    cases hx : p.run (c :: s) with
    | ok t w =>
      rw [hx] at h
      injection h with h1 _; subst h1
      have := hp _ _ _ hx
      show _ ≤ 1 + p.cost (c :: s) + 0 + _
      omega
    | err =>
      rw [hx] at h
      obtain ⟨r', w, h1, h2⟩ := bind_eq_ok.1 h
      injection h2 with h3 _; subst h3
      have := takeTillMatch_reads hp _ _ _ h1
      show _ ≤ 1 + p.cost (c :: s) + takeTillMatchCost p s + _
      simp only [List.length_cons]
      omega
    | fail z =>
      rw [hx] at h
      obtain ⟨r', w, h1, h2⟩ := bind_eq_ok.1 h
      injection h2 with h3 _; subst h3
      have := takeTillMatch_reads hp _ _ _ h1
      show _ ≤ 1 + p.cost (c :: s) + takeTillMatchCost p s + _
      simp only [List.length_cons]
      omega
    | panic => rw [hx] at h; cases h
    | diverge => rw [hx] at h; cases h

theorem heredocFinish_reads (c : Str × Nat) : Reads (heredocFinishW c) := fun s r v h => by
  have h : heredocFinish c s = .ok r v := h
  unfold heredocFinish at h
  split at h
  · injection h with h1 _; subst h1; exact Nat.le_add_left _ _
  · cases h

theorem heredocString_reads (U : CharClass) : Reads (heredocStringW U) :=
  (heredocBegin_reads U).bind fun h =>
    ((heredocEnd_reads h).map.orElse (eol_reads.bind fun _ => fun s r v => takeTillMatch_reads (heredocEnd_reads h) s r v)).bind
      heredocFinish_reads

theorem string_reads (U : CharClass) : Reads (stringW U) := quotedString_reads.map.orElse (heredocString_reads U)

theorem numSign_reads : Reads numSignW := ((Reads.tag _).orElse (.tag _)).opt.map
theorem mantissa_reads : Reads mantissaW :=
  ((Reads.takeWhile1 _).bind fun _ => ((Reads.tag _).bind fun _ => (Reads.takeWhile1 _).opt).opt.bind fun _ => .pure _).orElse
    ((Reads.tag _).bind fun _ => (Reads.takeWhile1 _).bind fun _ => .pure _)
theorem exponent_reads : Reads exponentW :=
  (((Reads.tag _).orElse (.tag _)).bind fun _ => numSign_reads.bind fun _ => (Reads.takeWhile1 _).bind fun _ => .pure _).opt

theorem number_reads : Reads numberW := fun s r v h => by
  obtain ⟨t, pos, h1, h2⟩ := bind_eq_ok.1 (show (numSign s).bind _ = .ok r v from h)
  obtain ⟨u, wf, h3, h4⟩ := bind_eq_ok.1 h2
  obtain ⟨x, ex, h5, h6⟩ := bind_eq_ok.1 h4
  injection h6 with h7 _; subst h7
  have hr : (numSign >>= fun _ => mantissa >>= fun _ => exponentP >>= fun _ => (Pure.pure () : Parser Unit)) s = .ok x () :=
    bindP_eq_ok.2 ⟨t, pos, h1, bindP_eq_ok.2 ⟨u, wf, h3, bindP_eq_ok.2 ⟨x, ex, h5, rfl⟩⟩⟩
  exact (numSign_reads.bind fun _ => mantissa_reads.bind fun _ => exponent_reads.bind fun _ => Reads.pure ()) s x () hr

theorem blockLabels_reads (U : CharClass) : Reads (blockLabelsW U) :=
  ((identifier_reads U).map.orElse stringLiteral_reads.map).inlineWsAround.many0

/-! ## expressions and bodies -/

variable {U : CharClass} {e : CParser Expr}

theorem tuple_reads (h : Reads e) : Reads (tupleW e) :=
  (Reads.tag _).bind fun _ =>
    (Reads.separatedList (ws_reads.bind fun _ => .tag _) (ws_reads.bind fun _ => h)).bind fun _ =>
      (ws_reads.bind fun _ => (Reads.tag _).opt.wsAround.bind fun _ => (Reads.tag _).bind fun _ => .pure _).bind fun _ => .pure _

theorem objectItem_reads (h : Reads e) : Reads (objectItemW U e) :=
  ws_reads.bind fun _ =>
    (inlineWs_reads.bind fun _ => ((identifier_reads U).map.orElse h.recognize.map).bind fun _ =>
      inlineWs_reads.bind fun _ => (Reads.tag _).bind fun _ => inlineWs_reads.bind fun _ => h.bind fun _ =>
      inlineWs_reads.bind fun _ => .pure _).bind fun _ =>
    ((Reads.tag _).map.orElse (newline_reads.map.orElse (Reads.peek _).map)).bind fun _ => .pure _

theorem object_reads (h : Reads e) : Reads (objectW U e) :=
  (Reads.tag _).wsAround.bind fun _ =>
    ((objectItem_reads h).many0.bind fun _ => ws_reads.bind fun _ => .pure _ : Reads (objectBodyW U e)).wsAround.bind fun _ =>
    (Reads.tag _).bind fun _ => .pure _

theorem expr_reads (U : CharClass) : ∀ n, Reads (exprW U n)
  | 0 => fun s r v h => by cases h
  | n + 1 =>
    have h := expr_reads U n
    (null_reads.map.orElse <| number_reads.map.orElse <| boolean_reads.map.orElse <| (string_reads U).map.orElse <|
      (tuple_reads h).map.orElse <| (object_reads h).map.orElse <|
      ((Reads.tag _).wsAround.bind fun _ => h.wsAround.bind fun _ => (Reads.tag _).bind fun _ => .pure _ :
        Reads (bracketExpressionW (exprW U n))) : Reads (exprStepW U (exprW U n))).call

theorem expression_reads (U : CharClass) : Reads (expressionW U) := fun s r v h =>
  expr_reads U (s.length + 1) s r v (by rw [exprW_run]; exact h)

theorem attribute_reads (U : CharClass) : Reads (attributeW U) :=
  inlineWs_reads.bind fun _ => (identifier_reads U).bind fun _ => inlineWs_reads.bind fun _ => (Reads.tag _).bind fun _ =>
    inlineWs_reads.bind fun _ => (expression_reads U).bind fun _ => inlineWs_reads.bind fun _ => .pure _

theorem oneLineBlock_reads (U : CharClass) : Reads (oneLineBlockW U) :=
  inlineWs_reads.bind fun _ => (identifier_reads U).bind fun _ => inlineWs_reads.bind fun _ => (blockLabels_reads U).bind fun _ =>
    inlineWs_reads.bind fun _ => (Reads.tag _).bind fun _ => inlineWs_reads.bind fun _ => (attribute_reads U).opt.bind fun _ =>
    inlineWs_reads.bind fun _ => (Reads.tag _).bind fun _ => inlineWs_reads.bind fun _ => .pure _

theorem block_reads {b : CParser Body} (h : Reads b) : Reads (blockW U b) :=
  inlineWs_reads.bind fun _ => (identifier_reads U).bind fun _ => inlineWs_reads.bind fun _ => (blockLabels_reads U).bind fun _ =>
    inlineWs_reads.bind fun _ => (Reads.tag _).bind fun _ => inlineWs_reads.bind fun _ => newline_reads.bind fun _ =>
    inlineWs_reads.bind fun _ => h.bind fun _ => inlineWs_reads.bind fun _ => (Reads.tag _).bind fun _ =>
    inlineWs_reads.bind fun _ => .pure _

theorem body_reads (U : CharClass) : ∀ n, Reads (bodyW U n)
  | 0 => fun s r v h => by cases h
  | n + 1 =>
    ((ws_reads.bind fun _ =>
        ((attribute_reads U).map.orElse ((oneLineBlock_reads U).orElse (block_reads (body_reads U n))) :
          Reads (bodyElementW U (bodyW U n))).bind fun _ =>
        (newline_reads.map.orElse .eof).bind fun _ => .pure _ : Reads (bodyItemW U (bodyW U n))).many0.bind fun _ =>
      ws_reads.bind fun _ => .pure _ : Reads (bodyStepW U (bodyW U n))).call

end
end Verif
