import Verif.Spec.RustTerm
import Verif.Props.DebugText
/-! # C77: what the command line program prints is a Rust term for the value -/
set_option autoImplicit false

namespace Verif
open Spec

theorem ws_nil : Ws [] := fun _ h => nomatch h

theorem ws_spaces (n : Nat) : Ws (spaces n) := fun _ h => .inl (List.mem_replicate.1 h).2

theorem ws_nl {s : Str} (h : Ws s) : Ws ('\n' :: s) := by
  intro c hc
  rcases List.mem_cons.1 hc with rfl | hc
  · exact .inr rfl
  · exact h c hc

theorem ws_append {s t : Str} (h : Ws s) (h' : Ws t) : Ws (s ++ t) := by
  intro c hc
  rcases List.mem_append.1 hc with hc | hc
  · exact h c hc
  · exact h' c hc

section
variable (D : DebugStyle)

theorem render_call (k : Nat) (n : Str) (x : DTree) (hn : '\n' ∉ n) : Applied n (renderAt D (k + 1) x) (renderAt D k (.tuple n [x])) := by
  rw [renderAt_tuple D k n [x] hn]
  simp only [itemsAt]
  have := Applied.mk (name := n) (x := renderAt D (k + 1) x) ('\n' :: (spaces (4 * k) ++ spaces 4)) ('\n' :: spaces (4 * k))
    (ws_nl (ws_append (ws_spaces _) (ws_spaces _))) (ws_nl (ws_spaces _))
  simpa using this

theorem render_couple (k : Nat) (x y : DTree) :
    Couple (renderAt D (k + 1) x) (renderAt D (k + 1) y) (renderAt D k (.tuple [] [x, y])) := by
  rw [renderAt_tuple D k [] [x, y] (by simp)]
  simp only [itemsAt]
  have := Couple.mk (x := renderAt D (k + 1) x) (y := renderAt D (k + 1) y) ('\n' :: (spaces (4 * k) ++ spaces 4))
    ('\n' :: (spaces (4 * k) ++ spaces 4)) ('\n' :: spaces (4 * k))
    (ws_nl (ws_append (ws_spaces _) (ws_spaces _))) (ws_nl (ws_append (ws_spaces _) (ws_spaces _))) (ws_nl (ws_spaces _))
  simpa using this

theorem render_list (k : Nat) (l : List DTree) : Between '[' ']' (itemsAt D k l) (renderAt D k (.list l)) := by
  cases l with
  | nil => exact .mk [] ws_nil
  | cons x l =>
    rw [renderAt_list]
    have := Between.mk (a := '[') (b := ']') (t := itemsAt D k (x :: l)) ('\n' :: spaces (4 * k)) (ws_nl (ws_spaces _))
    simpa using this

theorem render_map (k : Nat) (l : List (DTree × DTree)) : Between '{' '}' (entriesAt D k l) (renderAt D k (.map l)) := by
  cases l with
  | nil => exact .mk [] ws_nil
  | cons x l =>
    rw [renderAt_map]
    have := Between.mk (a := '{') (b := '}') (t := entriesAt D k (x :: l)) ('\n' :: spaces (4 * k)) (ws_nl (ws_spaces _))
    simpa using this

theorem render_item (k : Nat) (x : DTree) (l : List DTree) :
    Item (renderAt D (k + 1) x) (itemsAt D k l) (itemsAt D k (x :: l)) := by
  have := Item.mk (t := renderAt D (k + 1) x) (rest := itemsAt D k l) (spaces 4) ('\n' :: spaces (4 * k)) (ws_spaces _)
    (ws_nl (ws_spaces _))
  simpa [itemsAt] using this

theorem render_entry (k : Nat) (x y : DTree) (l : List (DTree × DTree)) :
    Item (renderAt D (k + 1) x ++ ": ".toList ++ renderAt D (k + 1) y) (entriesAt D k l) (entriesAt D k ((x, y) :: l)) := by
  have := Item.mk (t := renderAt D (k + 1) x ++ ": ".toList ++ renderAt D (k + 1) y) (rest := entriesAt D k l) (spaces 4)
    ('\n' :: spaces (4 * k)) (ws_spaces _) (ws_nl (ws_spaces _))
  simpa [entriesAt] using this

theorem decimalInt_no_nl (i : Int) : '\n' ∉ decimalInt i := by
  have hd : '\n' ∉ decimal i.natAbs := fun h => absurd ((numeral10_iff.1 (decimal_spec i.natAbs).2).1 _ h) (by decide)
  unfold decimalInt
  split
  · intro h
    rcases List.mem_cons.1 h with h | h
    · cases h
    · exact hd h
  · exact hd

theorem render_str (k : Nat) (s : Str) : StringTerm (renderAt D k (.str s)) s := by
  obtain ⟨t, h, ht⟩ := Props.c77_strings_are_literals D s
  unfold renderAt
  rw [DTree.pretty, shift_of_no_nl k (debugStr_nl D s), h]
  exact .mk _ _ ht

theorem render_strs (k : Nat) : ∀ l : List Str, StringTerms (itemsAt D k (l.map .str)) l
  | [] => .nil
  | s :: l => .cons _ _ _ _ _ (render_str D (k + 1) s) (render_strs k l) (render_item D k _ _)

theorem render_labels (k : Nat) (l : List Str) : LabelsTerm (renderAt D k (debugLabels l)) l :=
  .mk _ _ _ (render_strs D k l) (render_list D k _)

theorem render_key (k : Nat) : ∀ x : Key, KeyTerm (renderAt D k x.debug) x
  | .identifier _ => .identifier _ _ _ (render_str D (k + 1) _) (render_call D k _ _ (by decide))
  | .string _ => .string _ _ _ (render_str D (k + 1) _) (render_call D k _ _ (by decide))

theorem render_word (k : Nat) (s : Str) (h : '\n' ∉ s) : renderAt D k (.word s) = s := by
  unfold renderAt
  rw [DTree.pretty, shift_of_no_nl k h]

variable {D}
mutual
/-- values -/
theorem term_of (k : Nat) : ∀ v : Value, (∀ x, Value.float x ∈ leaves v → '\n' ∉ D.f64 x) → Term D (renderAt D k (v.debug D)) v
  | .null, _ => by rw [Value.debug, render_word D k _ (by decide)]; exact .null
  | .integer i, _ => .integer _ _ _ (by rw [render_word D _ _ (decimalInt_no_nl i)]; exact decimalInt_spec i) (render_call D k _ _ (by decide))
  | .float x, h => .float _ _ (by
      have := render_call D k (lit "Float") (.word (D.f64 x)) (by decide)
      rwa [render_word D _ _ (h x (by simp [leaves]))] at this)
  | .boolean true, _ => .true _ (by
      have := render_call D k (lit "Boolean") (.word (lit "true")) (by decide)
      rwa [render_word D _ _ (by decide)] at this)
  | .boolean false, _ => .false _ (by
      have := render_call D k (lit "Boolean") (.word (lit "false")) (by decide)
      rwa [render_word D _ _ (by decide)] at this)
  | .string s, _ => .string _ _ _ (render_str D (k + 1) s) (render_call D k _ _ (by decide))
  | .list l, h => .list _ _ _ _ (terms_of (k + 1) l h) (render_list D _ _) (render_call D k _ _ (by decide))
  | .object l, h => .object _ _ _ _ (mapTerms_of (k + 1) l h) (render_list D _ _) (render_call D k _ _ (by decide))
  | .block (.merged l), h => .merged _ _ _ _ _ (bodyEntryTerms_of (k + 2) l h) (render_map D _ _) (render_call D (k + 1) _ _ (by decide))
      (render_call D k _ _ (by decide))
  | .block (.unmerged l), h => .unmerged _ _ _ _ _ (bodyCoupleTerms_of (k + 2) l h) (render_list D _ _) (render_call D (k + 1) _ _ (by decide))
      (render_call D k _ _ (by decide))
/-- lists -/
theorem terms_of (k : Nat) : ∀ l : List Value, (∀ x, Value.float x ∈ listLeaves l → '\n' ∉ D.f64 x) →
    Terms D (itemsAt D k (Value.debugList D l)) l
  | [], _ => .nil
  | v :: l, h => .cons _ _ _ _ _ (term_of (k + 1) v fun x hx => h x (by simp [listLeaves, hx]))
      (terms_of k l fun x hx => h x (by simp [listLeaves, hx])) (render_item D k _ _)
/-- maps -/
theorem mapTerm_of (k : Nat) : ∀ m : KVP Key Value, (∀ x, Value.float x ∈ mapLeaves m → '\n' ∉ D.f64 x) →
    MapTerm D (renderAt D k (Value.debugMap D m)) m
  | .merged l, h => .merged _ _ _ _ (entryTerms_of (k + 1) l h) (render_map D _ _) (render_call D k _ _ (by decide))
  | .unmerged l, h => .unmerged _ _ _ _ (coupleTerms_of (k + 1) l h) (render_list D _ _) (render_call D k _ _ (by decide))
/-- lists of maps -/
theorem mapTerms_of (k : Nat) : ∀ l : List (KVP Key Value), (∀ x, Value.float x ∈ mapsLeaves l → '\n' ∉ D.f64 x) →
    MapTerms D (itemsAt D k (Value.debugMaps D l)) l
  | [], _ => .nil
  | m :: l, h => .cons _ _ _ _ _ (mapTerm_of (k + 1) m fun x hx => h x (by simp [mapsLeaves, hx]))
      (mapTerms_of k l fun x hx => h x (by simp [mapsLeaves, hx])) (render_item D k _ _)
/-- entries -/
theorem entryTerms_of (k : Nat) : ∀ l : List (Key × Value), (∀ x, Value.float x ∈ entriesLeaves l → '\n' ∉ D.f64 x) →
    EntryTerms D (entriesAt D k (Value.debugEntries D l)) l
  | [], _ => .nil
  | (a, v) :: l, h => .cons _ _ _ _ _ _ _ (render_key D (k + 1) a) (term_of (k + 1) v fun x hx => h x (by simp [entriesLeaves, hx]))
      (entryTerms_of k l fun x hx => h x (by simp [entriesLeaves, hx])) (render_entry D k _ _ _)
/-- pairs -/
theorem coupleTerms_of (k : Nat) : ∀ l : List (Key × Value), (∀ x, Value.float x ∈ entriesLeaves l → '\n' ∉ D.f64 x) →
    CoupleTerms D (itemsAt D k (Value.debugPairs D l)) l
  | [], _ => .nil
  | (a, v) :: l, h => .cons _ _ _ _ _ _ _ _ (render_key D (k + 2) a) (term_of (k + 2) v fun x hx => h x (by simp [entriesLeaves, hx]))
      (render_couple D (k + 1) _ _) (coupleTerms_of k l fun x hx => h x (by simp [entriesLeaves, hx])) (render_item D k _ _)
/-- bodies -/
theorem bodyEntryTerms_of (k : Nat) : ∀ l : List (List Str × KVP Key Value), (∀ x, Value.float x ∈ bodiesLeaves l → '\n' ∉ D.f64 x) →
    BodyEntryTerms D (entriesAt D k (Value.debugBodies D l)) l
  | [], _ => .nil
  | (a, m) :: l, h => .cons _ _ _ _ _ _ _ (render_labels D (k + 1) a) (mapTerm_of (k + 1) m fun x hx => h x (by simp [bodiesLeaves, hx]))
      (bodyEntryTerms_of k l fun x hx => h x (by simp [bodiesLeaves, hx])) (render_entry D k _ _ _)
/-- bodies in pairs -/
theorem bodyCoupleTerms_of (k : Nat) : ∀ l : List (List Str × KVP Key Value), (∀ x, Value.float x ∈ bodiesLeaves l → '\n' ∉ D.f64 x) →
    BodyCoupleTerms D (itemsAt D k (Value.debugBodyPairs D l)) l
  | [], _ => .nil
  | (a, m) :: l, h => .cons _ _ _ _ _ _ _ _ (render_labels D (k + 2) a) (mapTerm_of (k + 2) m fun x hx => h x (by simp [bodiesLeaves, hx]))
      (render_couple D (k + 1) _ _) (bodyCoupleTerms_of k l fun x hx => h x (by simp [bodiesLeaves, hx])) (render_item D k _ _)
end
end

namespace Props

/-- C77: what is printed is the value as a Rust term, on lines of its own. -/
theorem c77_prints_a_term (D : DebugStyle) (m : MapValues) (h : ∀ x, Value.float x ∈ mapLeaves m → '\n' ∉ D.f64 x) :
    ∃ t, printedValue D m = t ++ ['\n'] ∧ MapTerm D t m := by
  refine ⟨_, rfl, ?_⟩
  have := mapTerm_of 0 m h
  unfold renderAt at this
  rwa [shift_zero] at this

/-- C77: so when the program ends with success, it has written the parsed value as a Rust term. -/
theorem c77_output_is_a_term (D : DebugStyle) (hD : ∀ x, '\n' ∉ D.f64 x) (U : CharClass) (P : F64Parse) (os : Os) (w w' : World)
    (input output : Str) (noMerge : Bool)
    (h : runParse U P os (fun m => utf8 (printedValue D m)) w input output noMerge = (.ok (), w')) :
    ∃ m t, Parsed U P os w input noMerge m ∧ MapTerm D t m ∧ OutputIs w w' output (utf8 (t ++ ['\n'])) := by
  obtain ⟨m, pm, _, _, om⟩ := (c53_success_iff U P os _ w input output noMerge w').1 h
  obtain ⟨t, e, ht⟩ := c77_prints_a_term D m fun x _ => hD x
  exact ⟨m, t, pm, ht, e ▸ om⟩

/-- Non-vacuity: terms tell values apart, and the style of the example above shows floats on one line. -/
example : (∀ x, '\n' ∉ plainStyle.f64 x) ∧ (∀ t, Term plainStyle t .null → t = "Null".toList) ∧
    ∃ t, Term plainStyle t (.list [.boolean true, .string ['a']]) :=
  ⟨fun x h => absurd ((numeral10_iff.1 (decimal_spec x.bits).2).1 _ h) (by decide), fun t h => by cases h; rfl,
    _, term_of 0 _ (by simp [leaves, listLeaves])⟩

end Props
end Verif
