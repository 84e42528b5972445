import Verif.Props.BlocksEq
/-!
# C103: transitivity of `==` on indexed blocks

`==` on numbers is not transitive in general (C61): comparing with a float ignores signs. If all numbers are parses of
integer literals, it is.
-/
set_option autoImplicit false

namespace Verif.Props
open Verif Spec

variable (O : FloatOps)

section
variable {E F : Body → Body → Prop}

theorem pairs_compose {as bs : List Body} (h : AllPairs E as bs) : ∀ {cs : List Body}, AllPairs F bs cs →
    AllPairs (fun x z => ∃ y, E x y ∧ F y z) as cs := by
  induction h with
  | nil => intro cs h; cases h; exact .nil
  | cons a b as bs h _ ih => intro cs h'; cases h' with | cons _ c _ cs h2 h3 => exact .cons _ _ _ _ ⟨b, h, h2⟩ (ih h3)

theorem places_compose {a b c : BlockBody} (h : SamePlaces E a b) (h' : SamePlaces F b c) :
    SamePlaces (fun x z => ∃ y, E x y ∧ F y z) a c := by
  intro q
  constructor
  · intro x hx
    obtain ⟨y, hy, h1⟩ := (h q).1 x hx
    obtain ⟨z, hz, h2⟩ := (h' q).1 y hy
    exact ⟨z, hz, pairs_compose h1 h2⟩
  · intro z hz
    obtain ⟨y, hy, h1⟩ := (h' q).2 z hz
    obtain ⟨x, hx, h2⟩ := (h q).2 y hy
    exact ⟨x, hx, pairs_compose h2 h1⟩

theorem contents_compose {a b c : Blocks} (h : SameContents E a b) (h' : SameContents F b c) :
    SameContents (fun x z => ∃ y, E x y ∧ F y z) a c := fun t =>
  ⟨fun p hp ht => by
    obtain ⟨p1, h1, h2, h3⟩ := (h t).1 p hp ht
    obtain ⟨p2, h4, h5, h6⟩ := (h' t).1 p1 h1 h2
    exact ⟨p2, h4, h5, places_compose h3 h6⟩,
  fun p hp ht => by
    obtain ⟨p1, h1, h2, h3⟩ := (h' t).2 p hp ht
    obtain ⟨p2, h4, h5, h6⟩ := (h t).2 p1 h1 h2
    exact ⟨p2, h4, h5, places_compose h6 h3⟩⟩
end

/-- Every number in every one of the bodies is the parse of an integer literal. -/
def AllIntegers (bodies : List Body) : Prop := ∀ x ∈ bodies, ∀ n ∈ bodyNumbers x, IsInteger n

theorem compose_bodies {x z : Body}
    (h : ∃ y, (∃ w, (∃ u, (∃ v, (x = v ∧ ∀ n ∈ bodyNumbers x, IsInteger n) ∧ EqBody (NumEq O) v u) ∧
      (u = w ∧ ∀ n ∈ bodyNumbers u, IsInteger n)) ∧ EqBody (NumEq O) w y) ∧ (y = z ∧ ∀ n ∈ bodyNumbers y, IsInteger n)) :
    EqBody (NumEq O) x z := by
  obtain ⟨y, ⟨w, ⟨u, ⟨v, ⟨rfl, hx⟩, h1⟩, ⟨rfl, hu⟩⟩, h2⟩, ⟨rfl, hy⟩⟩ := h
  rw [← c61_bodies] at h1 h2 ⊢
  exact c61_transitive O _ _ _ hx hu hy h1 h2

/-- C103: among blocks whose numbers are all integer literals, `==` is transitive. -/
theorem c103_trans {m m' m'' : Blocks} (hm : Made m) (hm' : Made m') (hm'' : Made m'')
    (hi : AllIntegers ((Blocks.flatIter m).map fun q => q.2.2)) (hi' : AllIntegers ((Blocks.flatIter m').map fun q => q.2.2))
    (hi'' : AllIntegers ((Blocks.flatIter m'').map fun q => q.2.2)) (h : Blocks.eq O m m' = true)
    (h' : Blocks.eq O m' m'' = true) : Blocks.eq O m m'' = true := by
  rw [c103_blocks O hm hm'] at h
  rw [c103_blocks O hm' hm''] at h'
  rw [c103_blocks O hm hm'']
  have diag : ∀ {b : Blocks}, Made b → AllIntegers ((Blocks.flatIter b).map fun q => q.2.2) →
      SameContents (fun x y => x = y ∧ ∀ n ∈ bodyNumbers x, IsInteger n) b b := fun hb hi =>
    (contents_refl_iff (made_good hb)).2 fun x hx => ⟨rfl, hi x hx⟩
  exact contents_mono (fun _ _ => compose_bodies O)
    (contents_compose (contents_compose (contents_compose (contents_compose (diag hm hi) h) (diag hm' hi')) h') (diag hm'' hi''))

/-- C103: the same for the blocks of a type. -/
theorem c103_trans_body {b b' b'' : BlockBody} {h h' h'' : List (List BlockLabel × Body)} (hb : Built b h) (hb' : Built b' h')
    (hb'' : Built b'' h'') (hi : AllIntegers (b.flatIter.map Prod.snd)) (hi' : AllIntegers (b'.flatIter.map Prod.snd))
    (hi'' : AllIntegers (b''.flatIter.map Prod.snd)) (he : b.eq O b' = true) (he' : b'.eq O b'' = true) : b.eq O b'' = true := by
  rw [c103_block_body O hb hb'] at he
  rw [c103_block_body O hb' hb''] at he'
  rw [c103_block_body O hb hb'']
  have diag : ∀ {b : BlockBody} {h : List (List BlockLabel × Body)}, Built b h → AllIntegers (b.flatIter.map Prod.snd) →
      SamePlaces (fun x y => x = y ∧ ∀ n ∈ bodyNumbers x, IsInteger n) b b := fun hb hi =>
    (places_refl_iff (goodBody hb).1).2 fun x hx => ⟨rfl, hi x hx⟩
  exact places_mono (fun _ _ => compose_bodies O)
    (places_compose (places_compose (places_compose (places_compose (diag hb hi) he) (diag hb' hi')) he') (diag hb'' hi''))

/-! ## Cases that meet the hypotheses -/

theorem toyIntegers {x : Body} (h : x = [BodyElement.attribute (.borrowed ['a']) (.number toyOne)] ∨
    x = [BodyElement.attribute (.borrowed ['a']) (.number toyPlusOne)]) : ∀ n ∈ bodyNumbers x, IsInteger n := by
  intro n hn
  rcases h with rfl | rfl <;>
    simp only [bodyNumbers, bodyLeaves, elementLeaves, exprLeaves, leafNumbers, List.append_nil, List.mem_singleton] at hn <;>
    subst hn
  · exact ⟨_, 1, toyOne_is, toyOne_int⟩
  · exact ⟨_, 1, toyPlusOne_is, toyPlusOne_int⟩

example : Blocks.eq toyFloats (Blocks.new [nblk "x" [sl "l"] toyOne, nblk "y" [] toyOne])
    (Blocks.new [nblk "x" [sl "l"] toyOne, nblk "y" [] toyPlusOne]) = true :=
  c103_trans toyFloats (.new _) (.new [nblk "y" [] toyOne, nblk "x" [sl "l"] toyPlusOne]) (.new _)
    (fun x hx => toyIntegers (by
      have e : (Blocks.flatIter (Blocks.new [nblk "x" [sl "l"] toyOne, nblk "y" [] toyOne])).map (fun q => q.2.2) =
        [[BodyElement.attribute (.borrowed ['a']) (.number toyOne)], [BodyElement.attribute (.borrowed ['a']) (.number toyOne)]] := rfl
      rw [e] at hx; exact .inl (by simpa using hx)))
    (fun x hx => toyIntegers (by
      have e : (Blocks.flatIter (Blocks.new [nblk "y" [] toyOne, nblk "x" [sl "l"] toyPlusOne])).map (fun q => q.2.2) =
        [[BodyElement.attribute (.borrowed ['a']) (.number toyOne)], [BodyElement.attribute (.borrowed ['a']) (.number toyPlusOne)]] := rfl
      rw [e] at hx; simpa using hx))
    (fun x hx => toyIntegers (by
      have e : (Blocks.flatIter (Blocks.new [nblk "x" [sl "l"] toyOne, nblk "y" [] toyPlusOne])).map (fun q => q.2.2) =
        [[BodyElement.attribute (.borrowed ['a']) (.number toyOne)], [BodyElement.attribute (.borrowed ['a']) (.number toyPlusOne)]] := rfl
      rw [e] at hx; simpa using hx))
    eqNew (by decide +kernel)

example : (BlockBody.fromIter (eqHist toyOne)).eq toyFloats (BlockBody.fromIter (eqHist toyOne)) = true :=
  c103_trans_body toyFloats (eqHist_built toyOne) (eqHist_built toyPlusOne) (eqHist_built toyOne)
    (fun x hx => toyIntegers (by
      have e : (BlockBody.fromIter (eqHist toyOne)).flatIter.map Prod.snd =
        [[BodyElement.attribute (.borrowed ['a']) (.number toyOne)], [BodyElement.attribute (.borrowed ['a']) (.number toyOne)]] := rfl
      rw [e] at hx; exact .inl (by simpa using hx)))
    (fun x hx => toyIntegers (by
      have e : (BlockBody.fromIter (eqHist toyPlusOne)).flatIter.map Prod.snd =
        [[BodyElement.attribute (.borrowed ['a']) (.number toyPlusOne)], [BodyElement.attribute (.borrowed ['a']) (.number toyOne)]] := rfl
      rw [e] at hx; simpa [or_comm] using hx))
    (fun x hx => toyIntegers (by
      have e : (BlockBody.fromIter (eqHist toyOne)).flatIter.map Prod.snd =
        [[BodyElement.attribute (.borrowed ['a']) (.number toyOne)], [BodyElement.attribute (.borrowed ['a']) (.number toyOne)]] := rfl
      rw [e] at hx; exact .inl (by simpa using hx)))
    eqHist_eq (by decide +kernel)

-- but not if a number is written with a point: `1`, `1.0` and `-1`
example : Blocks.eq toyFloats (Blocks.new [nblk "x" [] toyOne]) (Blocks.new [nblk "x" [] toyFloatOne]) = true ∧
    Blocks.eq toyFloats (Blocks.new [nblk "x" [] toyFloatOne]) (Blocks.new [nblk "x" [] toyMinusOne]) = true ∧
    Blocks.eq toyFloats (Blocks.new [nblk "x" [] toyOne]) (Blocks.new [nblk "x" [] toyMinusOne]) = false := by
  decide +kernel

end Verif.Props
