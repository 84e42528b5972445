import Verif.Proofs.Alike
/-! # `Alike` is an equivalence on documents -/
set_option autoImplicit false

namespace Verif
open Spec

variable {P : F64Parse} {keep : Bool}

theorem Spec.AllRel.to_map {α β γ : Type} {f : α → γ} {g : β → γ} {as : List α} {bs : List β}
    (h : AllRel (fun a b => f a = g b) as bs) : as.map f = bs.map g := by
  induction h with
  | nil => rfl
  | cons a b as bs h _ ih => rw [List.map_cons, List.map_cons, h, ih]

theorem Spec.SameNumber.symm {n n' : Number} (h : SameNumber P n n') : SameNumber P n' n :=
  ⟨fun k => (h.1 k).symm, fun x => (h.2 x).symm⟩

theorem Spec.SameNumber.trans {n n' n'' : Number} (h : SameNumber P n n') (h' : SameNumber P n' n'') : SameNumber P n n'' :=
  ⟨fun k => (h.1 k).trans (h'.1 k), fun x => (h.2 x).trans (h'.2 x)⟩

/-- the other direction of a list in some order -/
theorem perm_back {α β γ : Type} {f : α → γ} {g : β → γ} {R : β → α → Prop} {as : List α} {bs bs' : List β}
    (hk : as.map f = bs.map g) (hr : AllRel R bs as) (hp : bs.Perm bs') :
    ∃ as', bs'.map g = as'.map f ∧ AllRel R bs' as' ∧ as'.Perm as := by
  have h := (AllRel.of_map hk).flip.both hr
  obtain ⟨as', h1, h2⟩ := AllRel.perm hp h
  exact ⟨as', (h1.imp fun _ _ _ _ h => h.1.symm).to_map, h1.imp fun _ _ _ _ h => h.2, h2.symm⟩

/-- Alike nodes are alike the other way round. -/
theorem Spec.Alike.symm {n n' : Node} (h : Alike P keep n n') : Alike P keep n' n := by
  refine Alike.rec (P := P) (keep := keep) (motive_1 := fun n n' _ => Alike P keep n' n)
    (motive_2 := fun es es' _ => AllRel (fun e e' => Alike P keep (.expr e) (.expr e')) es' es)
    (motive_3 := fun o o' _ => AllRel (fun p p' => Alike P keep (.expr p.2) (.expr p'.2)) o' o)
    (motive_4 := fun o o' _ => AllRel (fun p p' => Alike P keep (.expr p.2) (.expr p'.2)) o' o)
    (motive_5 := fun o o' _ => AllRel (fun q q' => Alike P keep (.body q.body) (.body q'.body)) o' o)
    (motive_6 := fun o o' _ => AllRel (fun q q' => Alike P keep (.body q.2) (.body q'.2)) o' o)
    ?_ ?_ ?_ ?_ ?_ ?_ ?_ ?_ ?_ ?_ ?_ ?_ ?_ ?_ ?_ ?_ ?_ ?_ ?_ h
  · exact .null
  · exact fun b => .boolean b
  · exact fun n n' h => .number _ _ h.symm
  · exact fun s s' h hk => .string _ _ h.symm fun k => (hk k).symm
  · exact fun es es' _ ih => .tuple _ _ ih
  · intro o o' o'' hk _ hp ih
    obtain ⟨m, h1, h2, h3⟩ := perm_back hk ih hp
    exact .object _ m _ h1 h2 h3
  · intro b b' as run hk _ hp h1 h2 hl _ ih ih'
    obtain ⟨m, h3, h4, h5⟩ := perm_back hk ih hp
    have hex : ∀ t, ∃ r, ∀ r', LastRun t (blocks b') r' → LastRun t (blocks b) r ∧ r' = run t := fun t => by
      by_cases h : ∃ r', LastRun t (blocks b') r'
      · obtain ⟨r', hr'⟩ := h
        obtain ⟨r, hr⟩ := h2 t r' hr'
        exact ⟨r, fun r1 hr1 => ⟨hr, lastRun_unique hr1 (h1 t r hr)⟩⟩
      · exact ⟨[], fun r hr => absurd ⟨r, hr⟩ h⟩
    refine .body b' b m (fun t => (hex t).choose) h3 h4 h5 (fun t r' hr' => ((hex t).choose_spec r' hr').1)
      (fun t r hr => ⟨_, h1 t r hr⟩) (fun t r' hr' => ?_) fun t r' hr' => ?_
    · obtain ⟨h6, rfl⟩ := (hex t).choose_spec r' hr'
      exact (hl t _ h6).flip.imp fun _ _ _ _ h => Eq.symm h
    · obtain ⟨h6, rfl⟩ := (hex t).choose_spec r' hr'
      exact ih' t _ h6
  · exact fun r r' h _ ih => .block _ _ (h.flip.imp fun _ _ _ _ h => Eq.symm h) ih
  · exact fun s s' h => .key _ _ h.symm
  · exact .nil
  · exact fun _ _ _ _ _ _ h ih => .cons _ _ _ _ h ih
  · exact .nil
  · exact fun _ _ _ _ _ _ h ih => .cons _ _ _ _ h ih
  · exact .nil
  · exact fun _ _ _ _ _ _ h ih => .cons _ _ _ _ h ih
  · exact .nil
  · exact fun _ _ _ _ _ _ h ih => .cons _ _ _ _ h ih
  · exact .nil
  · exact fun _ _ _ _ _ _ h ih => .cons _ _ _ _ h ih

/-- two lists in some order, one after the other -/
theorem perm_comp {α β γ δ : Type} {f : α → δ} {g : β → δ} {k : γ → δ} {R : β → γ → Prop} {T : α → γ → Prop} {as : List α}
    {bs bs' : List β} {cs cs' : List γ} (h1 : as.map f = bs.map g)
    (hr : AllRel (fun a b => ∀ c, R b c → T a c) as bs) (hp : bs.Perm bs') (h2 : bs'.map g = cs.map k) (hs : AllRel R bs' cs)
    (hq : cs.Perm cs') : ∃ ds, as.map f = ds.map k ∧ AllRel T as ds ∧ ds.Perm cs' := by
  obtain ⟨ds, h3, h4⟩ := AllRel.perm hp.symm ((AllRel.of_map h2).both hs)
  have h5 := ((AllRel.of_map h1).both hr).comp h3 (T := fun a c => f a = k c ∧ T a c)
    fun a b c _ h h' => ⟨h.1.trans h'.1, h.2 c h'.2⟩
  exact ⟨ds, (h5.imp fun _ _ _ _ h => h.1).to_map, h5.imp fun _ _ _ _ h => h.2, h4.symm.trans hq⟩

/-- Alike nodes in a row, where the one in the middle is not the index of the blocks of a type. -/
theorem Spec.Alike.trans {n n' n'' : Node} (h : Alike P keep n n') (h' : Alike P keep n' n'') (hn : ∀ c, n' ≠ .block c) :
    Alike P keep n n'' := by
  refine Alike.rec (P := P) (keep := keep) (motive_1 := fun n n' _ => (∀ c, n' ≠ .block c) → ∀ n'', Alike P keep n' n'' → Alike P keep n n'')
    (motive_2 := fun es es' _ => AllRel (fun e e' => ∀ x, Alike P keep (.expr e') (.expr x) → Alike P keep (.expr e) (.expr x)) es es')
    (motive_3 := fun o o' _ => AllRel (fun p p' => ∀ x : ObjKey × Expr, Alike P keep (.expr p'.2) (.expr x.2) → Alike P keep (.expr p.2) (.expr x.2)) o o')
    (motive_4 := fun o o' _ => AllRel (fun p p' => ∀ x : CowStr × Expr, Alike P keep (.expr p'.2) (.expr x.2) → Alike P keep (.expr p.2) (.expr x.2)) o o')
    (motive_5 := fun o o' _ => AllRel (fun q q' => ∀ x : Block, Alike P keep (.body q'.body) (.body x.body) → Alike P keep (.body q.body) (.body x.body)) o o')
    (motive_6 := fun _ _ _ => True)
    ?_ ?_ ?_ ?_ ?_ ?_ ?_ ?_ ?_ ?_ ?_ ?_ ?_ ?_ ?_ ?_ ?_ ?_ ?_ h hn n'' h'
  · exact fun _ _ h => h
  · exact fun _ _ _ h => h
  · intro n n' h _ n'' h'
    cases h' with
    | number _ n2 h2 => exact .number _ _ (h.trans h2)
  · intro s s' h hk _ n'' h'
    cases h' with
    | string _ s2 h2 hk2 => exact .string _ _ (h.trans h2) fun k => (hk k).trans (hk2 k)
  · intro es es' _ ih _ n'' h'
    cases h' with
    | tuple _ es2 h2 => exact .tuple _ _ (ih.comp h2 fun _ _ c _ h h' => h c h')
  · intro o o' o'' hk _ hp ih _ n'' h'
    cases h' with
    | object _ m m' hk2 h2 hp2 =>
      obtain ⟨d, h3, h4, h5⟩ := perm_comp hk ih hp hk2 h2 hp2
      exact .object _ d _ h3 h4 h5
  · intro b b' as run hk _ hp h1 h2 hl _ ih ih' _ n'' h'
    cases h' with
    | body _ b2 as2 run2 hk' ha' hp' h1' h2' hl' hb' =>
      obtain ⟨d, h3, h4, h5⟩ := perm_comp hk ih hp hk' ha' hp'
      refine .body b b2 d run2 h3 h4 h5 (fun t r hr => h1' t _ (h1 t r hr)) (fun t r hr => ?_) (fun t r hr => ?_) fun t r hr => ?_
      · obtain ⟨r', hr'⟩ := h2' t r hr
        exact h2 t r' hr'
      · exact (hl t r hr).comp (hl' t _ (h1 t r hr)) fun _ _ _ _ h h' => Eq.trans h h'
      · exact (ih' t r hr).comp (hb' t _ (h1 t r hr)) fun _ _ c _ h h' => h c h'
  · exact fun r r' _ _ _ hn => absurd rfl (hn _)
  · intro s s' h _ n'' h'
    cases h' with
    | key _ s2 h2 => exact .key _ _ (h.trans h2)
  · exact .nil
  · exact fun _ _ _ _ _ _ h ih => .cons _ _ _ _ (fun x => h (by simp) _) ih
  · exact .nil
  · exact fun _ _ _ _ _ _ h ih => .cons _ _ _ _ (fun x => h (by simp) _) ih
  · exact .nil
  · exact fun _ _ _ _ _ _ h ih => .cons _ _ _ _ (fun x => h (by simp) _) ih
  · exact .nil
  · exact fun _ _ _ _ _ _ h ih => .cons _ _ _ _ (fun x => h (by simp) _) ih
  · trivial
  · exact fun _ _ _ _ _ _ _ _ => trivial

end Verif
