import Verif.Model.Work
import Verif.Proofs.Calls
/-! # The number of steps of the HCL 2 parsers -/
set_option autoImplicit false

namespace Verif
open PRes Spec CParser

section
variable {α β : Type}

/-! ## parsers without counted calls -/

/-- what is left is not longer -/
def Shrinks (p : Parser α) : Prop := ∀ s r v, p s = .ok r v → r.length ≤ s.length

/-- on inputs of length at most `n` it makes at most `a` steps -/
structure Leaf (n a : Nat) (w : CParser α) : Prop where
  shrink : Shrinks w.run
  le : ∀ s, s.length ≤ n → w.cost s ≤ a

theorem Leaf.mono {n a b : Nat} {w : CParser α} (h : Leaf n a w) (hab : a ≤ b) : Leaf n b w :=
  ⟨h.shrink, fun s hs => Nat.le_trans (h.le s hs) hab⟩

theorem Shrinks.bind {p : Parser α} {f : α → Parser β} (hp : Shrinks p) (hf : ∀ v, Shrinks (f v)) : Shrinks (p >>= f) := by
  intro s r v h
  obtain ⟨t, w, h1, h2⟩ := bindP_eq_ok.1 h
  have := hp _ _ _ h1
  have := hf _ _ _ _ h2
  omega

theorem Shrinks.pure (v : α) : Shrinks (pure v : Parser α) := by
  intro s r w h
  injection h with h1 _; subst h1; exact Nat.le_refl _

theorem Leaf.pure {n : Nat} (v : α) : Leaf n 0 (pure v : CParser α) := ⟨Shrinks.pure v, fun _ _ => Nat.le_refl _⟩

theorem Leaf.bindWith {n a b : Nat} {p : CParser α} {f : α → CParser β} (hp : Leaf n a p) (hs : ∀ v, Shrinks (f v).run)
    (hf : ∀ s r v, s.length ≤ n → p.run s = .ok r v → (f v).cost r ≤ b) : Leaf n (a + b) (p >>= f) := by
  refine ⟨hp.shrink.bind hs, fun s hl => ?_⟩
  refine cost_bind_le (Nat.le_trans (hp.le s hl) (Nat.le_add_right _ _)) fun r v h => ?_
  exact Nat.add_le_add (hp.le s hl) (hf s r v hl h)

theorem Leaf.bind {n a b : Nat} {p : CParser α} {f : α → CParser β} (hp : Leaf n a p) (hf : ∀ v, Leaf n b (f v)) :
    Leaf n (a + b) (p >>= f) :=
  hp.bindWith (fun v => (hf v).shrink) fun s r v hl h => (hf v).le r (Nat.le_trans (hp.shrink _ _ _ h) hl)

theorem Shrinks.orElse {p q : Parser α} (hp : Shrinks p) (hq : Shrinks q) : Shrinks (p <//> q) := by
  intro s r v h
  rcases orElse_eq_ok.1 h with h | ⟨-, h⟩
  · exact hp _ _ _ h
  · exact hq _ _ _ h

theorem Leaf.orElse {n a b : Nat} {p q : CParser α} (hp : Leaf n a p) (hq : Leaf n b q) : Leaf n (a + b) (p <///> q) := by
  refine ⟨hp.shrink.orElse hq.shrink, fun s hl => ?_⟩
  show p.cost s + _ ≤ _
  have := hp.le s hl
  have := hq.le s hl
  split <;> omega

theorem Shrinks.map {p : Parser α} {g : α → β} (hp : Shrinks p) : Shrinks (mapP g p) := by
  intro s r v h
  obtain ⟨w, h, -⟩ := mapP_eq_ok.1 h
  exact hp _ _ _ h

theorem Leaf.map {n a : Nat} {g : α → β} {p : CParser α} (hp : Leaf n a p) : Leaf n a (CParser.map g p) :=
  ⟨hp.shrink.map, hp.le⟩

theorem Shrinks.opt {p : Parser α} (hp : Shrinks p) : Shrinks (Verif.opt p) := by
  intro s r v h
  unfold Verif.opt at h
  cases hx : p s with
  | ok r' w => rw [hx] at h; injection h with h1 _; subst h1; exact hp _ _ _ hx
  | err => rw [hx] at h; injection h with h1 _; subst h1; exact Nat.le_refl _
  | fail t => rw [hx] at h; cases h
  | panic => rw [hx] at h; cases h
  | diverge => rw [hx] at h; cases h

theorem Leaf.opt {n a : Nat} {p : CParser α} (hp : Leaf n a p) : Leaf n a (CParser.opt p) := ⟨hp.shrink.opt, hp.le⟩

theorem Leaf.peek {n a : Nat} {p : CParser α} (hp : Leaf n a p) : Leaf n a (CParser.peek p) := by
  refine ⟨fun s r v h => ?_, hp.le⟩
  obtain ⟨t, w, -, h⟩ := bind_eq_ok.1 (show (p.run s).bind (fun _ v => .ok s v) = .ok r v from h)
  injection h with h1 _; subst h1; exact Nat.le_refl _

theorem Leaf.verify {n a : Nat} {p : CParser α} {g : α → Bool} (hp : Leaf n a p) : Leaf n (a + 1) (CParser.verify p g) := by
  refine ⟨fun s r v h => ?_, fun s hs => Nat.add_le_add_right (hp.le s hs) 1⟩
  obtain ⟨t, w, h1, h⟩ := bind_eq_ok.1 (show (p.run s).bind (fun r v => if g v then PRes.ok r v else .err) = .ok r v from h)
  split at h
  · injection h with h2 _; subst h2; exact hp.shrink _ _ _ h1
  · cases h

theorem Leaf.mapRes {n a k : Nat} {p : CParser α} {g : α → Option β} (hp : Leaf n a p) : Leaf n (a + k) (CParser.mapRes k p g) := by
  refine ⟨fun s r v h => ?_, fun s hs => Nat.add_le_add_right (hp.le s hs) k⟩
  obtain ⟨t, w, h1, h⟩ := bind_eq_ok.1 (show (p.run s).bind _ = .ok r v from h)
  cases hg : g w with
  | some u => rw [hg] at h; injection h with h2 _; subst h2; exact hp.shrink _ _ _ h1
  | none => rw [hg] at h; cases h

theorem Leaf.returnError {n a : Nat} {p : CParser α} (hp : Leaf n a p) : Leaf n a (CParser.returnError p) := by
  refine ⟨fun s r v h => ?_, hp.le⟩
  have h : Verif.returnError p.run s = .ok r v := h
  unfold Verif.returnError at h
  cases hx : p.run s with
  | ok r' w => rw [hx] at h; injection h with h1 _; subst h1; exact hp.shrink _ _ _ hx
  | err => rw [hx] at h; cases h
  | fail t => rw [hx] at h; cases h
  | panic => rw [hx] at h; cases h
  | diverge => rw [hx] at h; cases h

theorem Shrinks.many0Aux {p : Parser α} (hp : Shrinks p) : ∀ n, Shrinks (Verif.many0Aux p n) := by
  intro n
  induction n with
  | zero => intro s r v h; cases h
  | succ n ih =>
    intro s r v h
    rw [Verif.many0Aux] at h
    dsimp only at h
    cases hx : p s with
    | ok r' w =>
      rw [hx] at h
      simp only at h
      split at h
      · obtain ⟨u, h1, -⟩ := map_eq_ok.1 h
        have := ih _ _ _ h1
        omega
      · injection h with h1 _; subst h1; exact Nat.le_refl _
    | err => rw [hx] at h; injection h with h1 _; subst h1; exact Nat.le_refl _
    | fail t => rw [hx] at h; cases h
    | panic => rw [hx] at h; cases h
    | diverge => rw [hx] at h; cases h

theorem Shrinks.many0 {p : Parser α} (hp : Shrinks p) : Shrinks (Verif.many0 p) := fun s r v h => hp.many0Aux _ s r v h

/-- steps proportional to what is consumed, if anything is -/
def Prop' (a : Nat) (p : CParser α) : Prop :=
  ∀ s r v, p.run s = .ok r v → r.length < s.length → p.cost s ≤ a * (s.length - r.length)

theorem many0Cost_le {n a b : Nat} {p : CParser α} (hp : Leaf n b p) (ha : Prop' a p) : ∀ (k : Nat) (s : Str), s.length ≤ n →
    many0Cost p k s ≤ a * s.length + b := by
  intro k
  induction k with
  | zero => intro s _; exact Nat.zero_le _
  | succ k ih =>
    intro s hs
    rw [many0Cost]
    have h0 := hp.le s hs
    split
    · rename_i r v hx
      split
      · rename_i hl
        have h1 := ha s r v hx hl
        have h2 := ih r (by omega)
        have h3 : a * (s.length - r.length) + a * r.length = a * s.length := by
          rw [← Nat.mul_add]; congr 1; omega
        omega
      · omega
    · omega

theorem Leaf.many0Lin {n a b : Nat} {p : CParser α} (hp : Leaf n b p) (ha : Prop' a p) : Leaf n (a * n + b) (CParser.many0 p) := by
  refine ⟨hp.shrink.many0, fun s hs => ?_⟩
  refine Nat.le_trans (many0Cost_le hp ha _ s hs) ?_
  exact Nat.add_le_add_right (Nat.mul_le_mul_left _ hs) _

theorem Leaf.many1Lin {n a b : Nat} {p : CParser α} (hp : Leaf n b p) (ha : Prop' a p) :
    Leaf n (b + (a * n + b)) (CParser.many1 p) := by
  refine ⟨fun s r v h => ?_, fun s hs => ?_⟩
  · obtain ⟨t, w, h1, h⟩ := bind_eq_ok.1 (show (p.run s).bind (fun r v => (Verif.many0 p.run r).map (v :: ·)) = .ok r v from h)
    obtain ⟨u, h2, -⟩ := map_eq_ok.1 h
    have := hp.shrink _ _ _ h1
    have := hp.shrink.many0 _ _ _ h2
    omega
  · show p.cost s + _ ≤ _
    have := hp.le s hs
    split
    · rename_i r v hx
      have := (hp.many0Lin ha).le r (Nat.le_trans (hp.shrink _ _ _ hx) hs)
      omega
    · omega

theorem many0Cost_quad {n a : Nat} {p : CParser α} (hp : Leaf n a p) : ∀ (k : Nat) (s : Str), s.length ≤ n →
    many0Cost p k s ≤ k * a := by
  intro k
  induction k with
  | zero => intro s _; exact Nat.zero_le _
  | succ k ih =>
    intro s hs
    rw [many0Cost, Nat.succ_mul]
    have h0 := hp.le s hs
    split
    · rename_i r v hx
      split
      · have h2 := ih r (Nat.le_trans (hp.shrink _ _ _ hx) hs)
        omega
      · omega
    · omega

theorem Leaf.many0 {n a : Nat} {p : CParser α} (hp : Leaf n a p) : Leaf n ((n + 1) * a) (CParser.many0 p) :=
  ⟨hp.shrink.many0, fun s hs => Nat.le_trans (many0Cost_quad hp _ s hs) (Nat.mul_le_mul_right _ (by omega))⟩

/-! ## primitives -/

theorem tag_shrinks (t : Str) : Shrinks (tag t) := by
  intro s r v h
  unfold tag at h
  split at h
  · injection h with h1 _; subst h1; simp
  · cases h

theorem Leaf.tag {n : Nat} (t : Str) : Leaf n (1 + t.length) (tagW t) :=
  ⟨tag_shrinks t, fun s _ => by show 1 + min _ _ ≤ _; omega⟩

theorem Leaf.tag' {n : Nat} (t : Str) : Leaf n (1 + n) (tagW t) :=
  ⟨tag_shrinks t, fun s hs => by show 1 + min _ _ ≤ _; omega⟩

theorem Leaf.eof {n : Nat} : Leaf n 1 eofW :=
  ⟨fun s r v h => by rw [(eof_eq_ok.1 h).2]; exact Nat.zero_le _, fun s _ => Nat.le_refl _⟩

private theorem takeWhile_length_le (f : Char → Bool) (s : Str) : (s.takeWhile f).length + (s.dropWhile f).length = s.length := by
  rw [← List.length_append, List.takeWhile_append_dropWhile]

theorem Leaf.takeWhile {n : Nat} (f : Char → Bool) : Leaf n (n + 2) (takeWhileW f) := by
  refine ⟨fun s r v h => ?_, fun s hs => ?_⟩
  · injection h with h1 _; subst h1
    have := takeWhile_length_le f s; omega
  · show 2 + (s.takeWhile f).length ≤ _
    have := takeWhile_length_le f s; omega

theorem Leaf.takeWhile1 {n : Nat} (f : Char → Bool) : Leaf n (n + 2) (takeWhile1W f) := by
  refine ⟨fun s r v h => ?_, fun s hs => ?_⟩
  · have h : Verif.takeWhile1 f s = .ok r v := h
    unfold Verif.takeWhile1 at h
    split at h
    · cases h
    · injection h with h1 _; subst h1
      have := takeWhile_length_le f s; omega
  · show 2 + (s.takeWhile f).length ≤ _
    have := takeWhile_length_le f s; omega

theorem Leaf.takeWhileMN {n : Nat} (m k : Nat) (f : Char → Bool) : Leaf n (k + 2) (takeWhileMNW m k f) := by
  refine ⟨fun s r v h => ?_, fun s hs => ?_⟩
  · have h : Verif.takeWhileMN m k f s = .ok r v := h
    unfold Verif.takeWhileMN at h
    simp only at h
    split at h
    · cases h
    · injection h with h1 _; subst h1; simp
  · show 2 + ((s.take k).takeWhile f).length ≤ _
    have := takeWhile_length_le f (s.take k)
    have : (s.take k).length ≤ k := by simp; omega
    omega

theorem takeUntilCost_le (t : Str) : ∀ s : Str, takeUntilCost t s ≤ (1 + t.length) * (s.length + 1)
  | [] => by simp [takeUntilCost]
  | c :: s => by
    rw [takeUntilCost]
    have := takeUntilCost_le t s
    simp only [List.length_cons]
    rw [Nat.mul_succ (1 + t.length) (s.length + 1)]
    split <;> omega

theorem takeUntil_shrinks (t : Str) : Shrinks (takeUntil t)
  | [], r, v, h => by
    unfold takeUntil at h
    split at h
    · injection h with h1 _; subst h1; exact Nat.le_refl _
    · cases h
  | c :: s, r, v, h => by
    unfold takeUntil at h
    split at h
    · injection h with h1 _; subst h1; exact Nat.le_refl _
    · obtain ⟨r', w, h1, h2⟩ := bind_eq_ok.1 h
      injection h2 with h3 _; subst h3
      have := takeUntil_shrinks t s _ _ h1
      simp; omega

theorem Leaf.takeUntil {n : Nat} (t : Str) : Leaf n ((1 + t.length) * (n + 1)) (takeUntilW t) :=
  ⟨takeUntil_shrinks t, fun s hs => Nat.le_trans (takeUntilCost_le t s) (Nat.mul_le_mul_left _ (by omega))⟩

end

end Verif
