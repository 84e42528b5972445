import Verif.Spec.Cli
import Verif.Props.OldValues
/-! # The command line program (C53) -/
set_option autoImplicit false

namespace Verif.Props
open Verif Spec

section
variable (U : CharClass) (P : F64Parse) (os : Os) (render : MapValues → List Nat) (w : World)

private theorem inputGives_of_reader {path : Str} {es : List ReadEvent} (h : inputReader os w path = .ok es)
    {r : Option (List Nat)} (hd : Delivers es r) : InputGives os w path r := by
  unfold inputReader at h
  split at h
  · rename_i hp
    injection h with h; subst h
    rw [hp]; exact .stdin _ hd
  · rename_i hp
    split at h
    · cases h
    · rename_i c hc
      split at h
      · rename_i ho
        injection h with h; subst h
        exact .file _ c _ hp hc ho hd
      · cases h

private theorem reader_of_inputGives {path : Str} {b : List Nat} (h : InputGives os w path (some b)) :
    ∃ es, inputReader os w path = .ok es ∧ Delivers es (some b) := by
  cases h with
  | stdin _ hd => exact ⟨_, rfl, hd⟩
  | file _ c _ hp hc ho hd =>
    refine ⟨_, ?_, hd⟩
    unfold inputReader
    rw [if_neg (show ¬ path = dash from hp), hc]
    simp only [ho, if_true]

private theorem parsed_iff (input : Str) (noMerge : Bool) (m : MapValues) :
    runParseInput U P os w input noMerge = .ok m ↔ Parsed U P os w input noMerge m := by
  unfold runParseInput
  constructor
  · intro h
    split at h
    · rename_i es he
      split at h
      · rename_i m' hm
        injection h with h; subst h
        obtain ⟨s, m', hd, hp, rfl⟩ := (c18_from_reader U P es _ _).1 hm
        refine ⟨s, m', inputGives_of_reader os w he hd, ?_, rfl⟩
        cases noMerge with
        | true => exact .inl ⟨rfl, hp⟩
        | false => exact .inr ⟨rfl, hp⟩
      all_goals cases h
    all_goals cases h
  · rintro ⟨s, m', hi, hp, rfl⟩
    obtain ⟨es, he, hd⟩ := reader_of_inputGives os w hi
    have : fromReader U P es (if noMerge then none else some .error) = .ok (ownMap m') := by
      refine (c18_from_reader U P es _ _).2 ⟨s, m', hd, ?_, rfl⟩
      rcases hp with ⟨rfl, hp⟩ | ⟨rfl, hp⟩ <;> exact hp
    rw [he]; simp only []; rw [this]

/-- C53: if the input does not parse, `run_parse` does not succeed and changes nothing: no file is created, truncated or
written, and nothing is printed. -/
theorem c53_nothing_written_unless_parsed (input output : Str) (noMerge : Bool)
    (h : ¬ ∃ m, Parsed U P os w input noMerge m) :
    (runParse U P os render w input output noMerge).2 = w ∧
    (runParse U P os render w input output noMerge).1 ≠ .ok () := by
  unfold runParse
  split
  · rename_i m hm
    exact absurd ⟨m, (parsed_iff U P os w input noMerge m).1 hm⟩ h
  all_goals exact ⟨rfl, fun h => (by cases h)⟩

/-- C53: it succeeds exactly if the input parses, the output can be opened and everything can be written; then the output
is exactly the rendering of the parsed value and nothing else has changed. The input is what the file contained
before, even if the output is the same file. -/
theorem c53_success_iff (input output : Str) (noMerge : Bool) (w' : World) :
    runParse U P os render w input output noMerge = (.ok (), w') ↔
      ∃ m, Parsed U P os w input noMerge m ∧ Writable os output ∧ os.writes output (render m) = none ∧
        OutputIs w w' output (render m) := by
  unfold runParse
  constructor
  · intro h
    split at h
    · rename_i m hm
      refine ⟨m, (parsed_iff U P os w input noMerge m).1 hm, ?_⟩
      by_cases ho : output = dash
      · subst ho
        simp only [outputWriter, if_true, writeAll] at h
        split at h
        · rename_i hw
          injection h with _ h
          refine ⟨.inl rfl, hw, ?_⟩
          subst h
          exact ⟨rfl, .inl ⟨rfl, rfl, rfl⟩⟩
        · cases h
      · simp only [outputWriter, if_neg ho] at h
        cases hc : os.canCreate output with
        | false => rw [hc] at h; cases h
        | true =>
          rw [hc] at h
          simp only [if_true, writeAll] at h
          split at h
          · rename_i hw
            injection h with _ h
            refine ⟨.inr hc, hw, ?_⟩
            subst h
            refine ⟨?_, .inr ⟨ho, ?_, ?_, ?_⟩⟩
            · simp [World.write, World.create, ho]
            · simp [World.write, World.create, ho]
            · intro p hp
              simp [World.write, World.create, ho, hp]
            · simp [World.write, World.create, ho]
          · cases h
    all_goals cases h
  · rintro ⟨m, hm, hwr, hw, hs, ho⟩
    rw [(parsed_iff U P os w input noMerge m).2 hm]
    simp only []
    rcases ho with ⟨rfl, hf, hst⟩ | ⟨hne, hf, hoth, hst⟩
    · have : outputWriter os w ['-'] = (.ok (), w) := by simp [outputWriter, dash]
      rw [this]
      simp only [writeAll, hw]
      congr 1
      cases w'
      simp_all [World.write, dash]
    · have hc : os.canCreate output = true := by
        rcases hwr with rfl | hc
        · exact absurd rfl hne
        · exact hc
      have hd : ¬ output = dash := hne
      have : outputWriter os w output = (.ok (), w.create output) := by simp [outputWriter, hd, hc]
      rw [this]
      simp only [writeAll, hw]
      congr 1
      obtain ⟨f', i', o'⟩ := w'
      dsimp only at hs hf hoth hst
      subst hs; subst hst
      simp only [World.write, if_neg hd, World.create]
      congr 1
      funext p
      by_cases hp : p = output
      · subst hp; simp [hf]
      · simp [hp, hoth p hp]

/-- C53: if it fails although the input parses, either nothing has changed (the output could not be opened), or the output
has a prefix of the rendering and nothing else has changed. -/
theorem c53_failed_output (input output : Str) (noMerge : Bool) (m : MapValues) (hm : Parsed U P os w input noMerge m)
    (r : Res CliErr Unit) (w' : World) (h : runParse U P os render w input output noMerge = (r, w')) (hr : r ≠ .ok ()) :
    r = .error .io ∧ (¬ Writable os output ∧ w' = w ∨
      Writable os output ∧ ∃ bytes, bytes <+: render m ∧ OutputIs w w' output bytes) := by
  unfold runParse at h
  rw [(parsed_iff U P os w input noMerge m).2 hm] at h
  simp only [] at h
  by_cases ho : output = dash
  · have : outputWriter os w output = (.ok (), w) := by simp [outputWriter, ho]
    rw [this] at h
    simp only [writeAll] at h
    split at h
    · injection h with h _; exact absurd h.symm hr
    · rename_i n hn
      injection h with h1 h2
      subst h1; subst h2
      refine ⟨rfl, .inr ⟨.inl ho, _, List.take_prefix n _, ?_, .inl ⟨ho, ?_, ?_⟩⟩⟩ <;> simp [World.write, ho]
  · cases hc : os.canCreate output with
    | false =>
      have : outputWriter os w output = (.error .io, w) := by simp [outputWriter, ho, hc]
      rw [this] at h
      injection h with h1 h2
      refine ⟨h1.symm, .inl ⟨?_, h2.symm⟩⟩
      rintro (h | h)
      · exact ho h
      · rw [hc] at h; cases h
    | true =>
      have : outputWriter os w output = (.ok (), w.create output) := by simp [outputWriter, ho, hc]
      rw [this] at h
      simp only [writeAll] at h
      split at h
      · injection h with h _; exact absurd h.symm hr
      · rename_i n hn
        injection h with h1 h2
        subst h1; subst h2
        refine ⟨rfl, .inr ⟨.inr hc, _, List.take_prefix n _, ?_, .inr ⟨ho, ?_, ?_, ?_⟩⟩⟩
        · simp [World.write, World.create, ho]
        · simp [World.write, World.create, ho]
        · intro p hp
          simp [World.write, World.create, ho, hp]
        · simp [World.write, World.create, ho]

/-- C53: the program ends, and without an indented heredoc in the input it does not panic. -/
theorem c53_no_panic (input output : Str) (noMerge : Bool) :
    (runParse U P os render w input output noMerge).1 ≠ .diverge ∧
    ((runParse U P os render w input output noMerge).1 = .panic →
      ∃ s, InputGives os w input (some (utf8 s)) ∧ ['<', '<', '-'] <:+: s) := by
  have hout : ∀ m, (match outputWriter os w output with
      | (.ok (), w') => writeAll os w' output (render m)
      | (r, w') => (r, w')).1 ≠ Res.diverge ∧ (match outputWriter os w output with
      | (.ok (), w') => writeAll os w' output (render m)
      | (r, w') => (r, w')).1 ≠ Res.panic := by
    intro m
    have hw : ∀ w', (writeAll os w' output (render m)).1 ≠ Res.diverge ∧ (writeAll os w' output (render m)).1 ≠ Res.panic := by
      intro w'
      unfold writeAll
      split <;> exact ⟨fun h => (by cases h), fun h => (by cases h)⟩
    rcases (show outputWriter os w output = (.ok (), w) ∨ outputWriter os w output = (.ok (), w.create output) ∨
        outputWriter os w output = (.error .io, w) by
      unfold outputWriter
      split
      · exact .inl rfl
      · split
        · exact .inr (.inl rfl)
        · exact .inr (.inr rfl)) with h | h | h
    · rw [h]; exact hw _
    · rw [h]; exact hw _
    · rw [h]; exact ⟨fun h => (by cases h), fun h => (by cases h)⟩
  have key : runParseInput U P os w input noMerge ≠ .diverge ∧ (runParseInput U P os w input noMerge = .panic →
      ∃ s, InputGives os w input (some (utf8 s)) ∧ ['<', '<', '-'] <:+: s) := by
    unfold runParseInput
    cases hi : inputReader os w input with
    | ok es =>
      simp only []
      have hr : fromReader U P es (if noMerge then none else some .error) ≠ .diverge ∧
          (fromReader U P es (if noMerge then none else some .error) = .panic →
            ∃ s, Delivers es (some (utf8 s)) ∧ ['<', '<', '-'] <:+: s) := by
        unfold fromReader
        cases hb : readToEnd es with
        | none => exact ⟨fun h => (by cases h), fun h => (by cases h)⟩
        | some bytes =>
          simp only []
          cases hf : fromUtf8 bytes with
          | none => exact ⟨fun h => (by cases h), fun h => (by cases h)⟩
          | some s =>
            simp only []
            cases hs : fromStr U P s (if noMerge then none else some .error) with
            | ok m => exact ⟨fun h => (by cases h), fun h => (by cases h)⟩
            | error e => exact ⟨fun h => (by cases h), fun h => (by cases h)⟩
            | diverge => exact absurd hs (c03_from_str_terminates U P s _)
            | panic =>
              refine ⟨fun h => (by cases h), fun _ => ⟨s, ?_, ?_⟩⟩
              · rw [delivers_iff, hb, fromUtf8_iff.1 hf]
              · have hm : (if noMerge then (none : Option MergeBehaviour) else some .error) = none ∨
                    (if noMerge then (none : Option MergeBehaviour) else some .error) = some .error := by
                  cases noMerge <;> simp
                obtain ⟨u, hu, m, e, t, c, b, r, -, -, -, rfl, -⟩ :=
                  c04_from_str_panics_only_on_bad_indented_heredoc U P s _ hm hs
                exact List.IsInfix.trans ⟨[], m ++ e ++ t, by simp⟩ hu.isInfix
      cases hfr : fromReader U P es (if noMerge then none else some .error) with
      | ok m => exact ⟨fun h => (by cases h), fun h => (by cases h)⟩
      | error e => exact ⟨fun h => (by cases h), fun h => (by cases h)⟩
      | diverge => exact absurd hfr hr.1
      | panic =>
        obtain ⟨s, hs, h3⟩ := hr.2 hfr
        exact ⟨fun h => (by cases h), fun _ => ⟨s, inputGives_of_reader os w hi hs, h3⟩⟩
    | error e => exact ⟨fun h => (by cases h), fun h => (by cases h)⟩
    | panic =>
      unfold inputReader at hi
      repeat' split at hi
      all_goals cases hi
    | diverge =>
      unfold inputReader at hi
      repeat' split at hi
      all_goals cases hi
  unfold runParse
  cases hi : runParseInput U P os w input noMerge with
  | ok m => exact ⟨(hout m).1, fun h => absurd h (hout m).2⟩
  | error e => exact ⟨fun h => (by cases h), fun h => (by cases h)⟩
  | diverge => exact absurd hi key.1
  | panic => exact ⟨fun h => (by cases h), fun _ => key.2 hi⟩

/-- C53: the exit status of `parse` is 0 exactly on success; otherwise no output file changes except for a failed write
(`c53_failed_output`), and on an error the message is printed after what `run_parse` printed. -/
theorem c53_exit_status (showErr : CliErr → List Nat) (a : ParseArgs) :
    ((cliMain U P os render showErr w (['p', 'a', 'r', 's', 'e'], some a)).1 = some 0 ↔
      (runParse U P os render w a.input a.output a.noMerge).1 = .ok ()) ∧
    (cliMain U P os render showErr w (['p', 'a', 'r', 's', 'e'], some a)).2.files =
      (runParse U P os render w a.input a.output a.noMerge).2.files ∧
    (∀ e, (runParse U P os render w a.input a.output a.noMerge).1 = .error e →
      (cliMain U P os render showErr w (['p', 'a', 'r', 's', 'e'], some a)).1 = some 1 ∧
      (cliMain U P os render showErr w (['p', 'a', 'r', 's', 'e'], some a)).2.stdout =
        (runParse U P os render w a.input a.output a.noMerge).2.stdout ++ showErr e) := by
  have : runSubcommand U P os render w (['p', 'a', 'r', 's', 'e'], some a) =
      runParse U P os render w a.input a.output a.noMerge := by simp [runSubcommand]
  unfold cliMain
  rw [this]
  generalize runParse U P os render w a.input a.output a.noMerge = r
  obtain ⟨r, w'⟩ := r
  cases r with
  | ok _ => simp
  | error e => simp [World.write]
  | panic => simp
  | diverge => simp

/-- C53: any other command fails with status 1 and touches no file. -/
theorem c53_unknown_command (showErr : CliErr → List Nat) (name : Str) (a : Option ParseArgs)
    (h : name ≠ ['p', 'a', 'r', 's', 'e'] ∨ a = none) :
    (cliMain U P os render showErr w (name, a)).1 = some 1 ∧ (cliMain U P os render showErr w (name, a)).2.files = w.files := by
  have : runSubcommand U P os render w (name, a) = (.error (.unknownCommand name), w) := by
    cases a with
    | none => rfl
    | some a =>
      rcases h with h | h
      · simp [runSubcommand, h]
      · cases h
  unfold cliMain
  rw [this]
  simp [World.write]

/-- C53: every run of the program ends: with status 0, with status 1, or with status 101; the last only when a panic
happened while reading, which takes an input with a `<<-`, and then nothing was written anywhere. -/
theorem c53_always_exits (showErr : CliErr → List Nat) (sub : Str × Option ParseArgs) :
    (cliMain U P os render showErr w sub).1 = some 0 ∨ (cliMain U P os render showErr w sub).1 = some 1 ∨
    (cliMain U P os render showErr w sub).1 = some 101 ∧ (cliMain U P os render showErr w sub).2 = w ∧
      ∃ a s, sub = (['p', 'a', 'r', 's', 'e'], some a) ∧ InputGives os w a.input (some (utf8 s)) ∧ ['<', '<', '-'] <:+: s := by
  obtain ⟨name, a⟩ := sub
  by_cases h : name ≠ ['p', 'a', 'r', 's', 'e'] ∨ a = none
  · exact .inr (.inl (c53_unknown_command U P os render w showErr name a h).1)
  · have hn : name = ['p', 'a', 'r', 's', 'e'] := Decidable.byContradiction fun hh => h (.inl hh)
    cases a with
    | none => exact absurd (.inr rfl) h
    | some a =>
      subst hn
      have e : runSubcommand U P os render w (['p', 'a', 'r', 's', 'e'], some a) =
          runParse U P os render w a.input a.output a.noMerge := by simp [runSubcommand]
      obtain ⟨h1, h2⟩ := c53_no_panic U P os render w a.input a.output a.noMerge
      have h3 := c53_nothing_written_unless_parsed U P os render w a.input a.output a.noMerge
      unfold cliMain
      rw [e]
      generalize hr : runParse U P os render w a.input a.output a.noMerge = r at *
      obtain ⟨r, w'⟩ := r
      cases r with
      | ok _ => exact .inl rfl
      | error e => exact .inr (.inl rfl)
      | diverge => exact absurd rfl h1
      | panic =>
        obtain ⟨s, hs⟩ := h2 rfl
        refine .inr (.inr ⟨rfl, ?_, a, s, rfl, hs⟩)
        refine (h3 ?_).1
        rintro ⟨m, hm⟩
        have := (c53_failed_output U P os render w a.input a.output a.noMerge m hm _ _ hr (by simp)).1
        cases this

end

/-! a case: `parse in out` where `in` contains `a=1`, and the same with the output over the input -/

/-- everything works, reads are whole -/
abbrev calm : Os := ⟨fun _ => true, fun _ c => [.data c], fun _ => true, fun _ _ => none⟩
/-- one file -/
abbrev oneFile : World := ⟨fun p => if p = ['i'] then some [97, 61, 49] else none, [], []⟩

example : Parsed asciiClass zeroFloats calm oneFile ['i'] false (.merged [(.identifier (.ownedS ['a']), .integer 1)]) := by
  refine ⟨['a', '=', '1'], .merged [(.identifier (.borrowed ['a']), .integer 1)], ?_, .inr ⟨rfl, by decide +kernel⟩, rfl⟩
  refine .file _ [97, 61, 49] _ (by decide) rfl rfl ?_
  rw [show utf8 ['a', '=', '1'] = [97, 61, 49] by decide]
  rw [delivers_iff]
  rfl

example (render : MapValues → List Nat) :
    ((runParse asciiClass zeroFloats calm render oneFile ['i'] ['i'] false).2.files ['i'] =
      some (render (.merged [(.identifier (.ownedS ['a']), .integer 1)]))) := by
  have : runParseInput asciiClass zeroFloats calm oneFile ['i'] false =
    .ok (.merged [(.identifier (.ownedS ['a']), .integer 1)]) := by decide +kernel
  unfold runParse
  rw [this]
  rfl

/-- one file with a heredoc whose only line is empty but should be indented -/
abbrev badFile : World := ⟨fun p => if p = ['i'] then some (utf8 "a = <<-EOF\n\n  EOF\n".toList) else none, [], []⟩

/-- Non-vacuity of C53: an input that makes the program panic. -/
example (render : MapValues → List Nat) (showErr : CliErr → List Nat) :
    (cliMain asciiClass zeroFloats calm render showErr badFile (['p', 'a', 'r', 's', 'e'], some ⟨['i'], ['o'], false⟩)).1 =
      some 101 := by
  have h : runParseInput asciiClass zeroFloats calm badFile ['i'] false = .panic := by decide +kernel
  have h' : runSubcommand asciiClass zeroFloats calm render badFile (['p', 'a', 'r', 's', 'e'], some ⟨['i'], ['o'], false⟩) =
      (.panic, badFile) := by
    simp only [runSubcommand, if_true, runParse]
    rw [h]
  unfold cliMain
  rw [h']

end Verif.Props
