import Verif.Model.BlocksMut
import Verif.Props.Blocks
/-!
# C64: changing blocks in place
-/
set_option autoImplicit false

namespace Verif.Spec

/-- What a program with step `f`, started in state `s`, makes of a list of labelled bodies it runs through in order: its last
state, and the bodies it leaves under the same labels. -/
def runThrough {σ L B : Type} (f : σ → L → B → σ × B) (s : σ) : List (L × B) → σ × List (L × B)
  | [] => (s, [])
  | (l, x) :: xs => ((runThrough f (f s l x).1 xs).1, (l, (f s l x).2) :: (runThrough f (f s l x).1 xs).2)

end Verif.Spec

namespace Verif.Props
open Verif Spec

/-! ## `get_mut` -/

section
variable {K V Q : Type} [DecidableEq Q] {borrow : K → Q}

theorem hgetMut_none {q : Q} {m : HashMap K V} : HashMap.getMut borrow q m = none ↔ HashMap.get borrow q m = none := by
  induction m with
  | nil => simp [HashMap.getMut, HashMap.get]
  | cons e m ih =>
    obtain ⟨k, v⟩ := e
    unfold HashMap.getMut HashMap.get
    by_cases h : borrow k = q
    · simp [h]
    · simp only [if_neg h, ← ih]
      cases HashMap.getMut borrow q m <;> simp

theorem hgetMut_some {q : Q} {m : HashMap K V} {x : V} {put : V → HashMap K V} (h : HashMap.getMut borrow q m = some (x, put)) :
    ∃ pre k post, m = pre ++ (k, x) :: post ∧ borrow k = q ∧ (∀ e ∈ pre, borrow e.1 ≠ q) ∧
      put = fun y => pre ++ (k, y) :: post := by
  induction m generalizing put with
  | nil => simp [HashMap.getMut] at h
  | cons e m ih =>
    obtain ⟨k, v⟩ := e
    unfold HashMap.getMut at h
    by_cases hk : borrow k = q
    · simp only [if_pos hk, Option.some.injEq, Prod.mk.injEq] at h
      obtain ⟨rfl, rfl⟩ := h
      exact ⟨[], k, m, rfl, hk, fun _ h => (by cases h), rfl⟩
    · simp only [if_neg hk] at h
      cases hm : HashMap.getMut borrow q m with
      | none => rw [hm] at h; cases h
      | some r =>
        obtain ⟨x', put'⟩ := r
        rw [hm] at h
        simp only [Option.some.injEq, Prod.mk.injEq] at h
        obtain ⟨rfl, rfl⟩ := h
        obtain ⟨pre, k', post, h1, h2, h3, h4⟩ := ih hm
        refine ⟨(k, v) :: pre, k', post, by rw [h1]; rfl, h2, ?_, by rw [h4]; rfl⟩
        intro e he
        rcases List.mem_cons.1 he with rfl | he
        · exact hk
        · exact h3 e he

theorem hget_split {q : Q} {pre post : HashMap K V} {k : K} {v : V} (hk : borrow k = q) (hpre : ∀ e ∈ pre, borrow e.1 ≠ q) :
    HashMap.get borrow q (pre ++ (k, v) :: post) = some v := by
  induction pre with
  | nil => simp [HashMap.get, hk]
  | cons e pre ih =>
    obtain ⟨k', v'⟩ := e
    have := hpre (k', v') (List.mem_cons_self ..)
    simp only [List.cons_append, HashMap.get, if_neg this]
    exact ih fun e he => hpre e (List.mem_cons_of_mem _ he)

theorem hget_split_ne {q : Q} {pre post : HashMap K V} {k : K} {v w : V} (hk : borrow k ≠ q) :
    HashMap.get borrow q (pre ++ (k, v) :: post) = HashMap.get borrow q (pre ++ (k, w) :: post) := by
  induction pre with
  | nil => simp [HashMap.get, hk]
  | cons e pre ih =>
    obtain ⟨k', v'⟩ := e
    simp only [List.cons_append, HashMap.get]
    by_cases h : borrow k' = q
    · simp [h]
    · simp only [if_neg h]; exact ih
end

theorem getMut_spec : ∀ (ls : List Str) (b : BlockBody),
    (b.getMut ls = none ∧ b.get ls = none) ∨ ∃ x put, b.getMut ls = some (x, put) ∧ b.get ls = some x := by
  intro ls
  induction ls with
  | nil => intro b; right; exact ⟨b, _, by cases b <;> rfl, by cases b <;> rfl⟩
  | cons l ls ih =>
    intro b
    cases b with
    | body _ => exact .inl ⟨rfl, rfl⟩
    | labels empty m =>
      cases h : HashMap.getMut BlockLabel.text l m with
      | none =>
        left
        refine ⟨by simp [BlockBody.getMut, h], ?_⟩
        simp [BlockBody.get, hgetMut_none.1 h]
      | some r =>
        obtain ⟨inner, put⟩ := r
        obtain ⟨pre, k, post, rfl, hk, hpre, rfl⟩ := hgetMut_some h
        have hg := hget_split (v := inner) (post := post) hk hpre
        rcases ih inner with ⟨h1, h2⟩ | ⟨x, p, h1, h2⟩
        · exact .inl ⟨by simp [BlockBody.getMut, h, h1], by simp [BlockBody.get, hg, h2]⟩
        · exact .inr ⟨x, fun y => .labels empty (pre ++ (k, p y) :: post), by simp [BlockBody.getMut, h, h1], by simp [BlockBody.get, hg, h2]⟩

/-- C64: `get_mut` finds a place exactly if `get` does, and it is the same one. -/
theorem c64_get_mut_is_get (b : BlockBody) (ls : List Str) : (b.getMut ls).map Prod.fst = b.get ls := by
  rcases getMut_spec ls b with ⟨h1, h2⟩ | ⟨x, put, h1, h2⟩ <;> rw [h1, h2] <;> rfl

/-- what writing through `get_mut` does, by places -/
theorem getMut_put : ∀ (ls : List Str) {b x : BlockBody} {put : BlockBody → BlockBody}, b.getMut ls = some (x, put) →
    put x = b ∧ (∀ y r, (put y).get (ls ++ r) = y.get r) ∧
    (∀ y ls', ¬ ls <+: ls' → ¬ ls' <+: ls → (put y).get ls' = b.get ls') ∧
    (∃ pre post, ∀ y, (put y).flatIter = pre ++ (y.flatIter.map fun p => (ls ++ p.1, p.2)) ++ post) ∧
    (∀ y, ∃ put', (put y).getMut ls = some (y, put') ∧ ∀ z, put' z = put z) := by
  intro ls
  induction ls with
  | nil =>
    intro b x put h
    have : x = b ∧ put = fun y => y := by cases b <;> (simp only [BlockBody.getMut, Option.some.injEq, Prod.mk.injEq] at h; exact ⟨h.1.symm, h.2.symm⟩)
    obtain ⟨rfl, rfl⟩ := this
    refine ⟨rfl, fun y r => rfl, fun y ls' h => absurd List.nil_prefix h, ⟨[], [], fun y => ?_⟩, fun y => ⟨fun z => z, ?_, fun z => rfl⟩⟩
    · simp
    · cases y <;> rfl
  | cons l ls ih =>
    intro b x put h
    cases b with
    | body _ => cases h
    | labels empty m =>
      cases hm : HashMap.getMut BlockLabel.text l m with
      | none => simp [BlockBody.getMut, hm] at h
      | some r =>
        obtain ⟨inner, putm⟩ := r
        cases hi : inner.getMut ls with
        | none => simp [BlockBody.getMut, hm, hi] at h
        | some r =>
          obtain ⟨x', p⟩ := r
          simp only [BlockBody.getMut, hm, hi, Option.some.injEq, Prod.mk.injEq] at h
          obtain ⟨rfl, rfl⟩ := h
          obtain ⟨pre, k, post, rfl, hk, hpre, rfl⟩ := hgetMut_some hm
          obtain ⟨i1, i2, i3, ⟨ipre, ipost, i4⟩, i5⟩ := ih hi
          refine ⟨by simp only [i1], ?_, ?_, ?_, ?_⟩
          · intro y r
            simp only [List.cons_append, BlockBody.get, hget_split hk hpre, i2]
          · intro y ls' n1 n2
            cases ls' with
            | nil => exact absurd List.nil_prefix n2
            | cons l' ls' =>
              by_cases hl : l' = l
              · subst hl
                simp only [BlockBody.get, hget_split hk hpre]
                refine i3 y ls' (fun h => n1 ?_) (fun h => n2 ?_)
                · exact List.cons_prefix_cons.2 ⟨rfl, h⟩
                · exact List.cons_prefix_cons.2 ⟨rfl, h⟩
              · have hne : BlockLabel.text k ≠ l' := fun h => hl (h.symm.trans hk)
                simp only [BlockBody.get, hget_split_ne (v := p y) (w := inner) hne]
          · have hfl : ∀ a b : List (BlockLabel × BlockBody), BlockBody.flatIterLabels (a ++ b) =
                BlockBody.flatIterLabels a ++ BlockBody.flatIterLabels b := by
              intro a
              induction a with
              | nil => intro b; rfl
              | cons e a ih =>
                intro b
                obtain ⟨k, v⟩ := e
                simp only [List.cons_append, BlockBody.flatIterLabels, ih, List.append_assoc]
            refine ⟨empty.map (fun x => ([], x)) ++ BlockBody.flatIterLabels pre ++ (ipre.map fun p => (l :: p.1, p.2)),
              (ipost.map fun p => (l :: p.1, p.2)) ++ BlockBody.flatIterLabels post, fun y => ?_⟩
            simp only [BlockBody.flatIter, hfl, BlockBody.flatIterLabels, i4, hk, List.map_append, List.map_map, List.append_assoc]
            rfl
          · intro y
            obtain ⟨put', h1, h2⟩ := i5 y
            have : ∀ (pre : HashMap BlockLabel BlockBody), (∀ e ∈ pre, e.1.text ≠ l) →
                HashMap.getMut BlockLabel.text l (pre ++ (k, p y) :: post) = some (p y, fun z => pre ++ (k, z) :: post) := by
              intro pre
              induction pre with
              | nil => intro _; simp [HashMap.getMut, hk]
              | cons e pre ih =>
                intro hpre
                obtain ⟨k', v'⟩ := e
                have hn := hpre (k', v') (List.mem_cons_self ..)
                simp only [List.cons_append, HashMap.getMut, if_neg hn, ih fun e he => hpre e (List.mem_cons_of_mem _ he)]
            refine ⟨fun z => .labels empty (pre ++ (k, put' z) :: post), by simp only [BlockBody.getMut, this pre hpre, h1], fun z => by simp only [h2]⟩

/-- C64: writing `y` through `get_mut`: then `get` gives `y` there, and places under it as in `y`; places not on the way to it
are unchanged; writing back what was there changes nothing; and a second write replaces the first. -/
theorem c64_get_mut_write (b x y : BlockBody) (ls : List Str) (put : BlockBody → BlockBody) (h : b.getMut ls = some (x, put)) :
    (put y).get ls = some y ∧ (∀ r, (put y).get (ls ++ r) = y.get r) ∧
      (∀ ls', ¬ ls <+: ls' → ¬ ls' <+: ls → (put y).get ls' = b.get ls') ∧ put x = b ∧
      ∃ put', (put y).getMut ls = some (y, put') ∧ ∀ z, put' z = put z := by
  obtain ⟨h1, h2, h3, _, h5⟩ := getMut_put ls h
  refine ⟨?_, h2 y, h3 y, h1, h5 y⟩
  have := h2 y []
  rw [List.append_nil] at this
  rw [this]
  cases y <;> rfl

/-- C64: writing through `get_mut` changes what `flat_iter` yields exactly at the place: one stretch of the items is replaced,
with the labels leading there. -/
theorem c64_get_mut_flat_iter (b x : BlockBody) (ls : List Str) (put : BlockBody → BlockBody) (h : b.getMut ls = some (x, put)) :
    ∃ pre post, b.flatIter = pre ++ (x.flatIter.map fun p => (ls ++ p.1, p.2)) ++ post ∧
      ∀ y, (put y).flatIter = pre ++ (y.flatIter.map fun p => (ls ++ p.1, p.2)) ++ post := by
  obtain ⟨h1, _, _, ⟨pre, post, h4⟩, _⟩ := getMut_put ls h
  refine ⟨pre, post, ?_, h4⟩
  have := h4 x
  rw [h1] at this
  exact this

/-! ## the same for `Blocks` -/

theorem blocks_getMut_cases {m : Blocks} {t : Str} {ls : List Str} {x : BlockBody} {put : BlockBody → Blocks}
    (h : m.getMut t ls = some (x, put)) :
    ∃ pre k b post p, m = pre ++ (k, b) :: post ∧ k.str = t ∧ (∀ e ∈ pre, e.1.str ≠ t) ∧ b.getMut ls = some (x, p) ∧
      put = fun y => pre ++ (k, p y) :: post := by
  unfold Blocks.getMut at h
  cases hm : HashMap.getMut CowStr.str t m with
  | none => rw [hm] at h; cases h
  | some r =>
    obtain ⟨b, putm⟩ := r
    rw [hm] at h
    cases hi : b.getMut ls with
    | none => simp [hi] at h
    | some r =>
      obtain ⟨x', p⟩ := r
      simp only [hi, Option.some.injEq, Prod.mk.injEq] at h
      obtain ⟨rfl, rfl⟩ := h
      obtain ⟨pre, k, post, rfl, hk, hpre, rfl⟩ := hgetMut_some hm
      exact ⟨pre, k, b, post, p, rfl, hk, hpre, hi, rfl⟩

/-- C64: `Blocks::get_mut` finds a place exactly if `Blocks::get` does, and it is the same one. -/
theorem c64_blocks_get_mut_is_get (m : Blocks) (t : Str) (ls : List Str) : (m.getMut t ls).map Prod.fst = m.get t ls := by
  unfold Blocks.getMut Blocks.get
  cases hm : HashMap.getMut CowStr.str t m with
  | none => rw [hgetMut_none.1 hm]; rfl
  | some r =>
    obtain ⟨b, putm⟩ := r
    obtain ⟨pre, k, post, rfl, hk, hpre, rfl⟩ := hgetMut_some hm
    rw [hget_split hk hpre]
    rcases getMut_spec ls b with ⟨h1, h2⟩ | ⟨x, put, h1, h2⟩ <;> simp [h1, h2]

/-- C64: writing through `Blocks::get_mut`: `get` then gives what was written there, and places under it as in what was written;
blocks of other types and places not on the way to it are unchanged; writing back what was there changes nothing. -/
theorem c64_blocks_get_mut_write (m : Blocks) (x y : BlockBody) (t : Str) (ls : List Str) (put : BlockBody → Blocks)
    (h : m.getMut t ls = some (x, put)) :
    (∀ r, (put y).get t (ls ++ r) = y.get r) ∧
      (∀ ls', ¬ ls <+: ls' → ¬ ls' <+: ls → (put y).get t ls' = m.get t ls') ∧
      (∀ t' ls', t' ≠ t → (put y).get t' ls' = m.get t' ls') ∧ put x = m := by
  obtain ⟨pre, k, b, post, p, rfl, hk, hpre, hb, rfl⟩ := blocks_getMut_cases h
  obtain ⟨h1, h2, h3, _, _⟩ := getMut_put ls hb
  refine ⟨?_, ?_, ?_, by simp only [h1]⟩
  · intro r
    simp only [Blocks.get, hget_split hk hpre, h2]
  · intro ls' n1 n2
    simp only [Blocks.get, hget_split hk hpre, h3 y ls' n1 n2]
  · intro t' ls' ht
    have hne : k.str ≠ t' := fun h => ht (h.symm.trans hk)
    simp only [Blocks.get, hget_split_ne (v := p y) (w := b) hne]

/-! ## mutable iterators -/

section
variable {σ : Type}

theorem runThrough_append {L B : Type} (f : σ → L → B → σ × B) : ∀ (a : List (L × B)) (s : σ) (b : List (L × B)),
    runThrough f s (a ++ b) = ((runThrough f (runThrough f s a).1 b).1, (runThrough f s a).2 ++ (runThrough f (runThrough f s a).1 b).2)
  | [], s, b => rfl
  | (l, x) :: a, s, b => by
    simp only [List.cons_append, runThrough, runThrough_append f a]

theorem runThrough_map {L M B : Type} (g : M → L) (f : σ → L → B → σ × B) : ∀ (a : List (M × B)) (s : σ),
    runThrough f s (a.map fun p => (g p.1, p.2)) =
      ((runThrough (fun s l x => f s (g l) x) s a).1, (runThrough (fun s l x => f s (g l) x) s a).2.map fun p => (g p.1, p.2))
  | [], s => rfl
  | (l, x) :: a, s => by
    simp only [List.map_cons, runThrough, runThrough_map g f a]

theorem visitBodies_eq (f : σ → List Str → Body → σ × Body) : ∀ (xs : List Body) (s : σ),
    runThrough f s (xs.map fun x => ([], x)) = ((visitBodies f s xs).1, (visitBodies f s xs).2.map fun x => ([], x))
  | [], s => rfl
  | x :: xs, s => by
    simp only [List.map_cons, runThrough, visitBodies, visitBodies_eq f xs]

mutual
theorem flatIterMut_eq : ∀ (f : σ → List Str → Body → σ × Body) (s : σ) (b : BlockBody),
    runThrough f s b.flatIter = ((b.flatIterMut f s).1, (b.flatIterMut f s).2.flatIter)
  | f, s, .body bodies => by
    simp only [BlockBody.flatIter, BlockBody.flatIterMut, visitBodies_eq]
  | f, s, .labels empty m => by
    simp only [BlockBody.flatIter, BlockBody.flatIterMut, visitBodies_eq, runThrough_append, flatIterMutLabels_eq f _ m]
theorem flatIterMutLabels_eq : ∀ (f : σ → List Str → Body → σ × Body) (s : σ) (m : List (BlockLabel × BlockBody)),
    runThrough f s (BlockBody.flatIterLabels m) =
      ((BlockBody.flatIterMutLabels f s m).1, BlockBody.flatIterLabels (BlockBody.flatIterMutLabels f s m).2)
  | f, s, [] => rfl
  | f, s, (label, b) :: m => by
    simp only [BlockBody.flatIterLabels, BlockBody.flatIterMutLabels, runThrough_append, runThrough_map (fun ls => label.text :: ls),
      flatIterMut_eq _ _ b, flatIterMutLabels_eq f _ m]
end
end

/-- C64: a program running through `flat_iter_mut` gets exactly the items of `flat_iter`, in that order, and afterwards
`flat_iter` yields what it wrote, under the same labels and in the same order. -/
theorem c64_flat_iter_mut (σ : Type) (f : σ → List Str → Body → σ × Body) (s : σ) (b : BlockBody) :
    runThrough f s b.flatIter = ((b.flatIterMut f s).1, (b.flatIterMut f s).2.flatIter) := flatIterMut_eq f s b

/-- C64: the same for all the blocks of a body. -/
theorem c64_blocks_flat_iter_mut (σ : Type) (f : σ → Str → List Str → Body → σ × Body) (m : Blocks) : ∀ s : σ,
    runThrough (fun s (p : Str × List Str) x => f s p.1 p.2 x) s (m.flatIter.map fun p => ((p.1, p.2.1), p.2.2)) =
      ((m.flatIterMut f s).1, (m.flatIterMut f s).2.flatIter.map fun p => ((p.1, p.2.1), p.2.2)) := by
  induction m with
  | nil => intro s; rfl
  | cons e m ih =>
    intro s
    obtain ⟨t, b⟩ := e
    have key : ∀ l : List (List Str × Body), ((l.map fun p => (t.str, p.1, p.2)).map fun p => ((p.1, p.2.1), p.2.2)) =
        l.map fun p => ((fun ls => (t.str, ls)) p.1, p.2) := fun l => by rw [List.map_map]; rfl
    simp only [Blocks.flatIter, Blocks.flatIterMut, List.map_append, key]
    rw [runThrough_append, runThrough_map (fun ls => (t.str, ls))]
    simp only [flatIterMut_eq, ih]

mutual
theorem flatIterMut_get : ∀ (f : List Str → Body → Body) (ls : List Str) (b : BlockBody),
    ((b.flatIterMut (fun s l x => (s, f l x)) ()).2).get ls =
      (b.get ls).map fun c => (c.flatIterMut (fun s l x => (s, f (ls ++ l) x)) ()).2
  | f, [], b => by
    have h : ∀ c : BlockBody, c.get [] = some c := fun c => by cases c <;> rfl
    rw [h, h]; rfl
  | f, l :: ls, .body bodies => by simp [BlockBody.flatIterMut, BlockBody.get]
  | f, l :: ls, .labels empty m => by
    simp only [BlockBody.flatIterMut, BlockBody.get]
    rw [flatIterMutLabels_get f l m]
    cases hm : HashMap.get BlockLabel.text l m with
    | none => rfl
    | some c => simp only [Option.map_some]; exact flatIterMut_getc f l ls m hm
theorem flatIterMutLabels_get : ∀ (f : List Str → Body → Body) (l : Str) (m : List (BlockLabel × BlockBody)),
    HashMap.get BlockLabel.text l (BlockBody.flatIterMutLabels (fun s l x => (s, f l x)) () m).2 =
      (HashMap.get BlockLabel.text l m).map fun c => (c.flatIterMut (fun s ls x => (s, f (l :: ls) x)) ()).2
  | f, l, [] => rfl
  | f, l, (label, b) :: m => by
    simp only [BlockBody.flatIterMutLabels, HashMap.get]
    by_cases h : label.text = l
    · simp [h]
    · simp only [if_neg h]
      exact flatIterMutLabels_get f l m
theorem flatIterMut_getc : ∀ (f : List Str → Body → Body) (l : Str) (ls : List Str) (m : List (BlockLabel × BlockBody)) {c : BlockBody},
    HashMap.get BlockLabel.text l m = some c →
    ((c.flatIterMut (fun s ls x => (s, f (l :: ls) x)) ()).2).get ls =
      (c.get ls).map fun c => (c.flatIterMut (fun s r x => (s, f (l :: ls ++ r) x)) ()).2
  | f, l, ls, [], _, h => by cases h
  | f, l, ls, (label, b) :: m, c, h => by
    unfold HashMap.get at h
    by_cases hl : label.text = l
    · simp only [if_pos hl, Option.some.injEq] at h
      subst h
      exact flatIterMut_get (fun r x => f (l :: r) x) ls b
    · simp only [if_neg hl] at h
      exact flatIterMut_getc f l ls m h
end

/-- C64: `flat_iter_mut` keeps the places: after replacing every body `x` under labels `l` by `f l x`, `get` finds the same
places as before, with their bodies replaced. -/
theorem c64_flat_iter_mut_get (f : List Str → Body → Body) (ls : List Str) (b : BlockBody) :
    ((b.flatIterMut (fun s l x => (s, f l x)) ()).2).get ls =
      (b.get ls).map fun c => (c.flatIterMut (fun s l x => (s, f (ls ++ l) x)) ()).2 := flatIterMut_get f ls b

/-- C64: `iter_mut` (and `for … in &mut blocks`) visits every type once, in the order of `iter`, and afterwards `iter` yields
what was written, under the same types. -/
theorem c64_iter_mut (σ : Type) (f : σ → CowStr → BlockBody → σ × BlockBody) (m : Blocks) : ∀ s : σ,
    m.iterMut f s = runThrough f s m := by
  induction m with
  | nil => intro s; rfl
  | cons e m ih => intro s; obtain ⟨t, b⟩ := e; simp only [Blocks.iterMut, runThrough, ih]

/-- C64: so replacing the blocks of every type `t` by `f t` of them with `iter_mut` is seen by `get`, type by type. -/
theorem c64_iter_mut_get (f : Str → BlockBody → BlockBody) (m : Blocks) (t : Str) (ls : List Str) :
    (m.iterMut (fun s t b => (s, f t.str b)) ()).2.get t ls = match m.get t [] with
      | none => none
      | some b => (f t b).get ls := by
  have key : HashMap.get CowStr.str t (m.iterMut (fun s t b => (s, f t.str b)) ()).2 =
      (HashMap.get CowStr.str t m).map (f t) := by
    induction m with
    | nil => rfl
    | cons e m ih =>
      obtain ⟨u, b⟩ := e
      simp only [Blocks.iterMut, HashMap.get]
      by_cases h : u.str = t
      · simp [h]
      · simp only [if_neg h, ih]
  unfold Blocks.get
  rw [key]
  cases HashMap.get CowStr.str t m with
  | none => rfl
  | some b => cases b <;> rfl

/-! ## `flat_into_iter`, `len`, `is_empty` -/

theorem asCow_text (l : BlockLabel) : l.asCow.str = l.text := by cases l <;> rfl

/-- C64: `as_cow` shows the text of the label; it is a copy exactly for a quoted label and for an identifier that already
was a copy. -/
theorem c64_as_cow (l : BlockLabel) :
    l.asCow.str = l.text ∧
    (l.asCow.owned = true ↔ (∃ t, l = .stringLiteral t) ∨ ∃ i : CowStr, l = .identifier i ∧ i.owned = true) := by
  cases l with
  | stringLiteral t => simp [BlockLabel.asCow, BlockLabel.text, CowStr.ownedS]
  | identifier i => simp [BlockLabel.asCow, BlockLabel.text]

mutual
theorem flatIntoIter_eq : ∀ b : BlockBody, (b.flatIntoIter.map fun p => (p.1.map CowStr.str, p.2)) = b.flatIter
  | .body bodies => by simp [BlockBody.flatIntoIter, BlockBody.flatIter]
  | .labels empty m => by simp [BlockBody.flatIntoIter, BlockBody.flatIter, flatIntoIterLabels_eq m]
theorem flatIntoIterLabels_eq : ∀ m : List (BlockLabel × BlockBody),
    ((BlockBody.flatIntoIterLabels m).map fun p => (p.1.map CowStr.str, p.2)) = BlockBody.flatIterLabels m
  | [] => rfl
  | (label, b) :: m => by
    simp only [BlockBody.flatIntoIterLabels, BlockBody.flatIterLabels, List.map_append, List.map_map, flatIntoIterLabels_eq m,
      ← flatIntoIter_eq b]
    congr 1
    apply List.map_congr_left
    intro p _
    simp [asCow_text]
end

/-- C64: `flat_into_iter` yields the items of `flat_iter`, by value. -/
theorem c64_flat_into_iter (b : BlockBody) : (b.flatIntoIter.map fun p => (p.1.map CowStr.str, p.2)) = b.flatIter :=
  flatIntoIter_eq b

/-- C64: the same for all the blocks of a body. -/
theorem c64_blocks_flat_into_iter (m : Blocks) :
    (m.flatIntoIter.map fun p => (p.1.str, p.2.1.map CowStr.str, p.2.2)) = m.flatIter := by
  induction m with
  | nil => rfl
  | cons e m ih =>
    obtain ⟨t, b⟩ := e
    simp only [Blocks.flatIntoIter, Blocks.flatIter, List.map_append, List.map_map, ih, ← flatIntoIter_eq b]
    rfl

/-- C64: a collection of blocks is empty exactly if it has no types, and then it has no blocks. -/
theorem c64_is_empty (m : Blocks) : (m.isEmpty = true ↔ ∀ t, m.get t [] = none) ∧ (m.isEmpty = true → m.flatIter = []) := by
  constructor
  · cases m with
    | nil => simp [Blocks.isEmpty, Blocks.len, Blocks.get, HashMap.get]
    | cons e m =>
      obtain ⟨t, b⟩ := e
      simp only [Blocks.isEmpty, Blocks.len, List.length_cons, beq_iff_eq, Nat.add_eq_zero_iff, Nat.succ_ne_zero, and_false, false_iff]
      intro h
      have := h t.str
      simp only [Blocks.get, HashMap.get, if_true] at this
      cases b <;> cases this
  · intro h
    cases m with
    | nil => rfl
    | cons e m => simp [Blocks.isEmpty, Blocks.len] at h

/-! ## the theorems are not vacuous -/

/-- a `BlockBody` with two levels of labels -/
def toyBlocks : BlockBody := .labels [[]] [(.stringLiteral ['a'], .body [[], []]),
  (.identifier (.borrowed ['b']), .labels [] [(.stringLiteral ['c'], .body [[]])])]

example : (toyBlocks.getMut [['b'], ['c']]).isSome = true ∧ toyBlocks.get [['b'], ['x']] = none ∧ toyBlocks.flatIter.length = 4 ∧
    (toyBlocks.flatIterMut (fun (n : Nat) _ x => (n + 1, x ++ x)) 0).1 = 4 := by
  refine ⟨rfl, ?_, rfl, rfl⟩
  rfl

end Verif.Props
