import Verif.Model.Tools
import Verif.Props.Document
import Verif.Proofs.Utf8
/-! # C86: what the fuzzing programs can find; when the build goes on -/
set_option autoImplicit false

namespace Verif.Props
open Verif Spec

variable (U : CharClass)

/-- C86: the fuzzed closure crashes exactly on the UTF-8 form of a text on which `parse_str` panics. -/
theorem c86_crashes_iff (data : List Nat) :
    fuzzOne U data = .crash ↔ ∃ s, data = utf8 s ∧ ∃ u, BodyAt U .expression s u ∧ BadHeredoc U u := by
  simp only [← c04_panics_exactly_on_bad_heredocs]
  unfold fuzzOne
  cases hf : fromUtf8 data with
  | none =>
    refine ⟨nofun, ?_⟩
    rintro ⟨s, rfl, -⟩
    rw [fromUtf8_utf8] at hf
    cases hf
  | some s =>
    have hd := fromUtf8_iff.1 hf
    constructor
    · intro h
      refine ⟨s, hd, ?_⟩
      revert h
      cases hp : parseStr U s <;> simp [hp]
    · rintro ⟨s', e, h⟩
      have : s' = s := by
        rw [e, fromUtf8_utf8] at hf
        exact Option.some.inj hf
      subst this
      simp [h]

/-- C86: it never hangs. -/
theorem c86_never_hangs (data : List Nat) : fuzzOne U data ≠ .hang := by
  unfold fuzzOne
  split
  · simp
  · next s _ =>
    have := parseStr_not_diverge (U := U) s
    cases hp : parseStr U s <;> simp_all

/-- C86: the fuzzing loop, whatever inputs it is given, goes through all inputs before the first that crashes, and ends there. -/
theorem c86_loop_ends_at_first_crash (ds : List (List Nat)) (n : Nat) (o : Option FuzzOutcome) :
    fuzzLoop U ds = (n, o) ↔
      (o = none ∧ n = ds.length ∧ ∀ d ∈ ds, fuzzOne U d ≠ .crash) ∨
      (o = some .crash ∧ ∃ before d after, ds = before ++ d :: after ∧ before.length = n ∧
        (∀ d ∈ before, fuzzOne U d ≠ .crash) ∧ fuzzOne U d = .crash) := by
  induction ds generalizing n o with
  | nil =>
    simp only [fuzzLoop, Prod.mk.injEq]
    constructor
    · rintro ⟨rfl, rfl⟩; exact .inl ⟨rfl, rfl, nofun⟩
    · rintro (⟨rfl, rfl, -⟩ | ⟨-, before, d, after, h, -⟩)
      · exact ⟨rfl, rfl⟩
      · simp at h
  | cons d ds ih =>
    have hh := c86_never_hangs U d
    simp only [fuzzLoop]
    cases hd : fuzzOne U d with
    | hang => exact absurd hd hh
    | crash =>
      simp only [Prod.mk.injEq]
      constructor
      · rintro ⟨rfl, rfl⟩
        exact .inr ⟨rfl, [], d, ds, rfl, rfl, nofun, hd⟩
      · rintro (⟨-, -, h⟩ | ⟨rfl, before, d', after, h, h1, h2, h3⟩)
        · exact absurd hd (h d (by simp))
        · cases before with
          | nil => exact ⟨h1, rfl⟩
          | cons b before =>
            injection h with h _
            exact absurd (h ▸ hd) (h2 b (by simp))
    | returns =>
      have ih' := ih (fuzzLoop U ds).1 (fuzzLoop U ds).2
      simp only [true_iff] at ih'
      simp only [Prod.mk.injEq]
      constructor
      · rintro ⟨rfl, rfl⟩
        rcases ih' with ⟨h1, h2, h3⟩ | ⟨h1, before, d', after, h2, h3, h4, h5⟩
        · refine .inl ⟨h1, by simp [h2], fun x hx => ?_⟩
          rcases List.mem_cons.1 hx with rfl | hx
          · simp [hd]
          · exact h3 x hx
        · refine .inr ⟨h1, d :: before, d', after, by simp [h2], by simp [h3], fun x hx => ?_, h5⟩
          rcases List.mem_cons.1 hx with rfl | hx
          · simp [hd]
          · exact h4 x hx
      · intro h
        have := (ih (n - 1) o).2 ?_
        · rw [this]
          refine ⟨?_, rfl⟩
          rcases h with ⟨-, h, -⟩ | ⟨-, before, d', after, h, h1, -, h3⟩
          · simp at h; omega
          · cases before with
            | nil => injection h with h _; subst h; rw [hd] at h3; cases h3
            | cons => simp at h1; omega
        · rcases h with ⟨h1, h2, h3⟩ | ⟨h1, before, d', after, h, h2, h3, h4⟩
          · exact .inl ⟨h1, by simp at h2; omega, fun x hx => h3 x (by simp [hx])⟩
          · cases before with
            | nil => injection h with h _; subst h; rw [hd] at h4; cases h4
            | cons b before =>
              injection h with _ h
              exact .inr ⟨h1, before, d', after, h, by simp at h2; omega, fun x hx => h3 x (by simp [hx]), h4⟩

/-- C86: the build stops exactly if it is known that the compiler is too old by its version or its date. -/
theorem c86_build_stops_iff (version date : Option Bool) : buildScript version date = .stops ↔
    version ≠ none ∧ date ≠ none ∧ (version = some false ∨ date = some false) := by
  rcases version with _ | _ | _ <;> rcases date with _ | _ | _ <;> decide

/-- C86: it goes on without a warning exactly if the compiler is known to be new enough. -/
theorem c86_build_proceeds_iff (version date : Option Bool) :
    buildScript version date = .proceeds ↔ version = some true ∧ date = some true := by
  rcases version with _ | _ | _ <;> rcases date with _ | _ | _ <;> decide

/-- Non-vacuity of C86: the third input is the first that crashes. -/
example : fuzzLoop asciiClass [[0xff], utf8 "a = 1\n".toList, utf8 "a = <<-EOF\n\n  EOF\n".toList, []] = (2, some .crash) := by
  decide +kernel

end Verif.Props
