import Verif.Model.Debug
import Verif.Props.Messages
/-! # The pretty `Debug` form determines what it shows -/
set_option autoImplicit false

namespace Verif
open Verif.Props (split_first)

/-! ## hexadecimal -/

private theorem hexDigit_inj {m n : Nat} (hm : m < 16) (hn : n < 16) (h : hexDigit m = hexDigit n) : m = n := by
  have key : ∀ a : Fin 16, ∀ b : Fin 16, hexDigit a.val = hexDigit b.val → a.val = b.val := by decide
  exact key ⟨m, hm⟩ ⟨n, hn⟩ h

private theorem hexDigit_ne {m : Nat} (hm : m < 16) : hexDigit m ≠ '}' := by
  have key : ∀ a : Fin 16, hexDigit a.val ≠ '}' := by decide
  exact key ⟨m, hm⟩

private theorem hexDigit_nl {m : Nat} (hm : m < 16) : hexDigit m ≠ '\n' := by
  have key : ∀ a : Fin 16, hexDigit a.val ≠ '\n' := by decide
  exact key ⟨m, hm⟩

private theorem hexAux_ne_nil (f n : Nat) : hexAux f n ≠ [] := by
  cases f with
  | zero => simp [hexAux]
  | succ f => unfold hexAux; split <;> simp

private theorem append_singleton_inj {a b : Str} {x y : Char} (h : a ++ [x] = b ++ [y]) : a = b ∧ x = y := by
  have := List.append_inj' h rfl
  exact ⟨this.1, by simpa using this.2⟩

private theorem hexAux_inj : ∀ (f g m n : Nat), m ≤ f → n ≤ g → hexAux f m = hexAux g n → m = n := by
  intro f
  induction f with
  | zero =>
    intro g m n hm hn h
    have : m = 0 := by omega
    subst this
    cases g with
    | zero => omega
    | succ g =>
      unfold hexAux at h
      split at h
      · rename_i hlt
        have := hexDigit_inj (m := 0) (by omega) hlt (by simpa using h)
        omega
      · have := (append_singleton_inj (a := []) h).1
        exact absurd this.symm (hexAux_ne_nil _ _)
  | succ f ih =>
    intro g m n hm hn h
    cases g with
    | zero =>
      have : n = 0 := by omega
      subst this
      unfold hexAux at h
      split at h
      · rename_i hlt
        exact hexDigit_inj hlt (by omega) (by simpa using h)
      · have := (append_singleton_inj (b := []) h).1
        exact absurd this (hexAux_ne_nil _ _)
    | succ g =>
      unfold hexAux at h
      split at h
      · rename_i hlt
        split at h
        · rename_i hlt'
          exact hexDigit_inj hlt hlt' (by simpa using h)
        · have := (append_singleton_inj (a := []) h).1
          exact absurd this.symm (hexAux_ne_nil _ _)
      · split at h
        · have := (append_singleton_inj (b := []) h).1
          exact absurd this (hexAux_ne_nil _ _)
        · have h := append_singleton_inj h
          have h1 := ih g (m / 16) (n / 16) (by omega) (by omega) h.1
          have h2 := hexDigit_inj (by omega) (by omega) h.2
          omega

private theorem hexText_inj {m n : Nat} (h : hexText m = hexText n) : m = n :=
  hexAux_inj m n m n (Nat.le_refl _) (Nat.le_refl _) h

private theorem hexAux_mem {c : Char} : ∀ (f n : Nat), c ∈ hexAux f n → ∃ d, d < 16 ∧ c = hexDigit d := by
  intro f
  induction f with
  | zero => intro n h; exact ⟨n % 16, by omega, by simpa [hexAux] using h⟩
  | succ f ih =>
    intro n h
    unfold hexAux at h
    split at h
    · rename_i hlt
      exact ⟨n, hlt, by simpa using h⟩
    · rcases List.mem_append.1 h with h | h
      · exact ih _ h
      · exact ⟨n % 16, by omega, by simpa using h⟩

/-! ## escapes -/

/-- what an escape can look like -/
private theorem escape_cases (D : DebugStyle) (c : Char) :
    (escapeDebug D c = [c] ∧ c ≠ '\\' ∧ c ≠ '"' ∧ c ≠ '\n') ∨
    (∃ x, escapeDebug D c = ['\\', x] ∧ (c, x) ∈ [('\t', 't'), ('\r', 'r'), ('\n', 'n'), ('\\', '\\'), ('"', '"'), ('\'', '\''), ('\x00', '0')]) ∨
    escapeDebug D c = '\\' :: 'u' :: '{' :: (hexText c.toNat ++ ['}']) := by
  unfold escapeDebug
  split
  · rename_i h; subst h; exact .inr (.inl ⟨_, rfl, by decide⟩)
  split
  · rename_i h; subst h; exact .inr (.inl ⟨_, rfl, by decide⟩)
  split
  · rename_i h; subst h; exact .inr (.inl ⟨_, rfl, by decide⟩)
  split
  · rename_i h; subst h; exact .inr (.inl ⟨_, rfl, by decide⟩)
  split
  · rename_i h; subst h; exact .inr (.inl ⟨_, rfl, by decide⟩)
  split
  · rename_i h; obtain ⟨rfl, _⟩ := h; exact .inr (.inl ⟨_, rfl, by decide⟩)
  split
  · rename_i h; obtain ⟨rfl, _⟩ := h; exact .inr (.inl ⟨_, rfl, by decide⟩)
  split
  · exact .inl ⟨rfl, by assumption, by assumption, by assumption⟩
  · exact .inr (.inr rfl)

private theorem escape_inj (D : DebugStyle) (c d : Char) (r r' : Str)
    (h : escapeDebug D c ++ r = escapeDebug D d ++ r') : c = d ∧ r = r' := by
  rcases escape_cases D c with ⟨hc, h1, h2, h3⟩ | ⟨x, hc, hx⟩ | hc <;>
    rcases escape_cases D d with ⟨hd, g1, g2, g3⟩ | ⟨y, hd, hy⟩ | hd <;> rw [hc, hd] at h
  · injection h with h h'; exact ⟨h, h'⟩
  · injection h with h _; exact absurd h h1
  · injection h with h _; exact absurd h h1
  · injection h with h _; exact absurd h.symm g1
  · injection h with _ h; injection h with h h'
    refine ⟨?_, h'⟩
    subst h
    simp only [List.mem_cons, Prod.mk.injEq, List.not_mem_nil, or_false] at hx hy
    rcases hx with ⟨rfl, rfl⟩ | ⟨rfl, rfl⟩ | ⟨rfl, rfl⟩ | ⟨rfl, rfl⟩ | ⟨rfl, rfl⟩ | ⟨rfl, rfl⟩ | ⟨rfl, rfl⟩ <;>
      simp at hy <;> exact hy.symm
  · injection h with _ h; injection h with h _
    subst h
    simp at hx
  · injection h with h _; exact absurd h.symm g1
  · injection h with _ h; injection h with h _
    subst h
    simp at hy
  · injection h with _ h; injection h with _ h; injection h with _ h
    have h : hexText c.toNat ++ '}' :: r = hexText d.toNat ++ '}' :: r' := by
      simpa only [List.append_eq, List.append_assoc, List.singleton_append] using h
    have nb : ∀ n, '}' ∉ hexText n := by
      intro n hm
      obtain ⟨d, hd, he⟩ := hexAux_mem _ _ hm
      exact hexDigit_ne hd he.symm
    have h := split_first (nb _) (nb _) h
    refine ⟨?_, h.2⟩
    have := hexText_inj h.1
    exact Char.ext (UInt32.toNat_inj.1 this)

private theorem escape_head (D : DebugStyle) (c : Char) (r : Str) : ∃ x s, escapeDebug D c ++ r = x :: s ∧ x ≠ '"' := by
  rcases escape_cases D c with ⟨hc, h1, h2, h3⟩ | ⟨x, hc, hx⟩ | hc <;> rw [hc]
  · exact ⟨_, _, rfl, h2⟩
  · exact ⟨_, _, rfl, by decide⟩
  · exact ⟨_, _, rfl, by decide⟩

private theorem escape_nl (D : DebugStyle) (c : Char) : '\n' ∉ escapeDebug D c := by
  rcases escape_cases D c with ⟨hc, h1, h2, h3⟩ | ⟨x, hc, hx⟩ | hc <;> rw [hc] <;> intro h
  · simp at h; exact h3 h.symm
  · simp only [List.mem_cons, List.not_mem_nil, or_false] at h
    rcases h with h | rfl
    · exact absurd h (by decide)
    · simp at hx
  · simp only [List.mem_cons, List.mem_append, List.not_mem_nil, or_false] at h
    rcases h with h | h | h | h | h
    · exact absurd h (by decide)
    · exact absurd h (by decide)
    · exact absurd h (by decide)
    · obtain ⟨d, hd, he⟩ := hexAux_mem _ _ h
      exact hexDigit_nl hd he.symm
    · exact absurd h (by decide)

private theorem escapes_inj (D : DebugStyle) : ∀ (a b r r' : Str),
    (a.map (escapeDebug D)).flatten ++ '"' :: r = (b.map (escapeDebug D)).flatten ++ '"' :: r' → a = b ∧ r = r'
  | [], [], r, r', h => by injection h with _ h; exact ⟨rfl, h⟩
  | [], d :: b, r, r', h => by
    simp only [List.map_nil, List.flatten_nil, List.map_cons, List.flatten_cons, List.append_assoc, List.nil_append] at h
    obtain ⟨x, s, hx, hne⟩ := escape_head D d ((b.map (escapeDebug D)).flatten ++ '"' :: r')
    rw [hx] at h
    injection h with h _
    exact absurd h.symm hne
  | c :: a, [], r, r', h => by
    simp only [List.map_nil, List.flatten_nil, List.map_cons, List.flatten_cons, List.append_assoc, List.nil_append] at h
    obtain ⟨x, s, hx, hne⟩ := escape_head D c ((a.map (escapeDebug D)).flatten ++ '"' :: r)
    rw [hx] at h
    injection h with h _
    exact absurd h hne
  | c :: a, d :: b, r, r', h => by
    simp only [List.map_cons, List.flatten_cons, List.append_assoc] at h
    have h := escape_inj D c d _ _ h
    have h' := escapes_inj D a b r r' h.2
    exact ⟨by rw [h.1, h'.1], h'.2⟩

theorem debugStr_nl (D : DebugStyle) (s : Str) : '\n' ∉ debugStr D s := by
  intro h
  simp only [debugStr, List.mem_cons, List.mem_append, List.not_mem_nil, or_false, List.cons_append] at h
  rcases h with h | h | h
  · exact absurd h (by decide)
  · obtain ⟨l, hl, h⟩ := List.mem_flatten.1 h
    obtain ⟨c, _, rfl⟩ := List.mem_map.1 hl
    exact escape_nl D c h
  · exact absurd h (by decide)

theorem debugStr_inj (D : DebugStyle) (a b r r' : Str) (h : debugStr D a ++ r = debugStr D b ++ r') : a = b ∧ r = r' := by
  simp only [debugStr, List.cons_append, List.append_assoc] at h
  injection h with _ h
  exact escapes_inj D a b r r' h

/-! ## indentation -/

/-- `n` spaces -/
def spaces (n : Nat) : Str := List.replicate n ' '

/-- four more spaces `k` times at the start of every line but the first -/
def shift (k : Nat) (s : Str) : Str := (s.map fun c => if c = '\n' then '\n' :: spaces (4 * k) else [c]).flatten

theorem shift_append (k : Nat) (a b : Str) : shift k (a ++ b) = shift k a ++ shift k b := by
  simp [shift]

theorem shift_cons (k : Nat) (c : Char) (b : Str) (h : c ≠ '\n') : shift k (c :: b) = c :: shift k b := by
  simp [shift, h]

theorem shift_nl (k : Nat) (b : Str) : shift k ('\n' :: b) = '\n' :: (spaces (4 * k) ++ shift k b) := by
  simp [shift]

theorem shift_of_no_nl (k : Nat) : ∀ {s : Str}, '\n' ∉ s → shift k s = s
  | [], _ => rfl
  | c :: s, h => by
    rw [shift_cons k c s (fun hc => h (by rw [hc]; exact .head _)), shift_of_no_nl k (fun hc => h (.tail _ hc))]

theorem spaces_no_nl (n : Nat) : '\n' ∉ spaces n := by
  intro h
  have := (List.mem_replicate.1 h).2
  exact absurd this (by decide)

theorem spaces_add (m n : Nat) : spaces (m + n) = spaces m ++ spaces n := by
  simp [spaces, List.replicate_append_replicate]

theorem shift_shift (k : Nat) : ∀ s : Str, shift k (shift 1 s) = shift (k + 1) s
  | [] => rfl
  | c :: s => by
    by_cases h : c = '\n'
    · subst h
      rw [shift_nl, shift_nl, shift_nl, shift_append, shift_shift k s, shift_of_no_nl k (spaces_no_nl _),
        ← List.append_assoc, ← spaces_add, show 4 * k + 4 * 1 = 4 * (k + 1) from by omega]
    · rw [shift_cons 1 c s h, shift_cons _ c _ h, shift_cons _ c _ h, shift_shift k s]

theorem shift_zero : ∀ s : Str, shift 0 s = s
  | [] => rfl
  | c :: s => by
    by_cases h : c = '\n'
    · subst h
      rw [shift_nl, shift_zero s]; rfl
    · rw [shift_cons _ c _ h, shift_zero s]

private theorem pad_false : ∀ (s : Str), pad false (s ++ [',', '\n']) = shift 1 s ++ [',', '\n'] ∧
    pad true (s ++ [',', '\n']) = spaces 4 ++ (shift 1 s ++ [',', '\n'])
  | [] => ⟨rfl, rfl⟩
  | c :: s => by
    have ih := pad_false s
    by_cases h : c = '\n'
    · subst h
      simp only [List.cons_append, pad, shift_nl]
      simp only [beq_self_eq_true, ih.2]
      constructor
      · simp [spaces]
      · simp [spaces]
    · simp only [List.cons_append, pad, shift_cons 1 c s h]
      have hb : (c == '\n') = false := by simpa using h
      simp only [hb, ih.1]
      constructor
      · simp
      · simp [spaces]

theorem pad_eq (s : Str) : pad true (s ++ [',', '\n']) = spaces 4 ++ (shift 1 s ++ [',', '\n']) := (pad_false s).2

/-! ## rendering at a depth -/

variable (D : DebugStyle)

/-- the text of a tree at depth `k` -/
def renderAt (k : Nat) (t : DTree) : Str := shift k (t.pretty D)

/-- items of a tuple or list at depth `k` -/
def itemsAt (k : Nat) : List DTree → Str
  | [] => []
  | t :: ts => spaces 4 ++ (renderAt D (k + 1) t ++ ',' :: '\n' :: (spaces (4 * k) ++ itemsAt k ts))

/-- entries of a map at depth `k` -/
def entriesAt (k : Nat) : List (DTree × DTree) → Str
  | [] => []
  | (a, b) :: ts => spaces 4 ++ (renderAt D (k + 1) a ++ ':' :: ' ' :: (renderAt D (k + 1) b ++
      ',' :: '\n' :: (spaces (4 * k) ++ entriesAt k ts)))

theorem shift_item (k : Nat) (s : Str) : shift k (pad true (s ++ [',', '\n'])) =
    spaces 4 ++ (shift (k + 1) s ++ ',' :: '\n' :: spaces (4 * k)) := by
  rw [pad_eq, shift_append, shift_append, shift_shift, shift_of_no_nl k (spaces_no_nl 4), shift_cons k ',' _ (by decide), shift_nl]
  simp [shift]

theorem shift_items (k : Nat) : ∀ ts : List DTree, shift k (DTree.prettyItems D ts) = itemsAt D k ts
  | [] => rfl
  | t :: ts => by
    simp only [DTree.prettyItems, itemsAt]
    rw [shift_append, shift_item, shift_items k ts]
    simp [renderAt]

theorem shift_entries (k : Nat) : ∀ ts : List (DTree × DTree), shift k (DTree.prettyEntries D ts) = entriesAt D k ts
  | [] => rfl
  | (a, b) :: ts => by
    simp only [DTree.prettyEntries, entriesAt]
    rw [shift_append, shift_item, shift_entries k ts, shift_append, shift_append]
    simp [renderAt, shift]

theorem renderAt_tuple (k : Nat) (n : Str) (fs : List DTree) (hn : '\n' ∉ n) :
    renderAt D k (.tuple n fs) = n ++ '(' :: '\n' :: (spaces (4 * k) ++ (itemsAt D k fs ++ [')'])) := by
  unfold renderAt
  simp only [DTree.pretty]
  rw [shift_append, shift_append, shift_append, shift_of_no_nl k hn, shift_items, shift_cons k '(' _ (by decide), shift_nl,
    shift_cons k ')' _ (by decide)]
  simp [shift]

theorem renderAt_list (k : Nat) (t : DTree) (ts : List DTree) :
    renderAt D k (.list (t :: ts)) = '[' :: '\n' :: (spaces (4 * k) ++ (itemsAt D k (t :: ts) ++ [']'])) := by
  unfold renderAt
  simp only [DTree.pretty]
  rw [show pad true (t.pretty D ++ [',', '\n']) ++ DTree.prettyItems D ts = DTree.prettyItems D (t :: ts) from by
    simp only [DTree.prettyItems]]
  rw [shift_append, shift_append, shift_items, shift_cons k '[' _ (by decide), shift_nl, shift_cons k ']' _ (by decide)]
  simp [shift]

theorem renderAt_map (k : Nat) (p : DTree × DTree) (ts : List (DTree × DTree)) :
    renderAt D k (.map (p :: ts)) = '{' :: '\n' :: (spaces (4 * k) ++ (entriesAt D k (p :: ts) ++ ['}'])) := by
  obtain ⟨a, b⟩ := p
  unfold renderAt
  simp only [DTree.pretty]
  rw [show pad true (a.pretty D ++ [':', ' '] ++ b.pretty D ++ [',', '\n']) ++ DTree.prettyEntries D ts =
    DTree.prettyEntries D ((a, b) :: ts) from by simp only [DTree.prettyEntries]]
  rw [shift_append, shift_append, shift_entries, shift_cons k '{' _ (by decide), shift_nl, shift_cons k '}' _ (by decide)]
  simp [shift]

theorem renderAt_struct (k : Nat) (n : Str) (fs : List (DTree × DTree)) (hn : '\n' ∉ n) :
    renderAt D k (.struct n fs) = n ++ ' ' :: '{' :: '\n' :: (spaces (4 * k) ++ (entriesAt D k fs ++ ['}'])) := by
  unfold renderAt
  simp only [DTree.pretty]
  rw [shift_append, shift_append, shift_append, shift_of_no_nl k hn, shift_entries, shift_cons k ' ' _ (by decide),
    shift_cons k '{' _ (by decide), shift_nl, shift_cons k '}' _ (by decide)]
  simp [shift]

/-! ## reading it back -/

/-- characters of words and names -/
def wordChar (c : Char) : Bool := !(['"', '(', ')', '[', ']', '{', '}', ',', ':', '\n', ' '].contains c)

/-- all of them word characters -/
def CleanWord (s : Str) : Prop := ∀ c ∈ s, wordChar c = true

mutual
/-- Words are not empty and, like names, have no punctuation. -/
def DTree.Clean : DTree → Prop
  | .word s => s ≠ [] ∧ CleanWord s
  | .str _ => True
  | .tuple n fs => CleanWord n ∧ CleanItems fs
  | .struct n fs => CleanWord n ∧ CleanEntries fs
  | .list ts => CleanItems ts
  | .map es => CleanEntries es
/-- one by one -/
def CleanItems : List DTree → Prop
  | [] => True
  | t :: ts => t.Clean ∧ CleanItems ts
/-- one by one -/
def CleanEntries : List (DTree × DTree) → Prop
  | [] => True
  | (a, b) :: es => a.Clean ∧ b.Clean ∧ CleanEntries es
end

private theorem clean_nl {s : Str} (h : CleanWord s) : '\n' ∉ s := fun hc => by
  have := h _ hc
  exact absurd this (by decide)

/-- nothing, or not a word character first -/
private def Barrier (s : Str) : Prop := ∀ c r, s = c :: r → wordChar c = false

private theorem clean_split : ∀ {a b x y : Str}, CleanWord a → CleanWord b → Barrier x → Barrier y → a ++ x = b ++ y → a = b ∧ x = y
  | [], [], _, _, _, _, _, _, h => ⟨rfl, h⟩
  | [], c :: b, _, _, _, hb, hx, _, h => by
    have h1 := hx c (b ++ _) (by simpa using h)
    rw [hb c (.head _)] at h1; cases h1
  | c :: a, [], _, _, ha, _, _, hy, h => by
    have h1 := hy c (a ++ _) (by simpa using h.symm)
    rw [ha c (.head _)] at h1; cases h1
  | c :: a, d :: b, x, y, ha, hb, hx, hy, h => by
    injection h with h1 h2
    have := clean_split (fun e he => ha e (.tail _ he)) (fun e he => hb e (.tail _ he)) hx hy h2
    exact ⟨by rw [h1, this.1], this.2⟩

/-- what can follow a tree: nothing, a comma or a colon -/
def Stops (r : Str) : Prop := r = [] ∨ ∃ s, r = ',' :: s ∨ r = ':' :: s

private theorem barrier_cons {c : Char} (h : wordChar c = false) (s : Str) : Barrier (c :: s) := by
  intro d r he; injection he with he _; rw [← he]; exact h

private theorem barrier_stops {r : Str} (h : Stops r) : Barrier r := by
  rcases h with rfl | ⟨s, rfl | rfl⟩
  · intro c r h; cases h
  · exact barrier_cons (by decide) _
  · exact barrier_cons (by decide) _

private theorem word_render (k : Nat) {s : Str} (h : CleanWord s) : renderAt D k (.word s) = s := by
  unfold renderAt
  simp only [DTree.pretty]
  exact shift_of_no_nl k (clean_nl h)

private theorem str_render (k : Nat) (s : Str) : renderAt D k (.str s) = debugStr D s := by
  unfold renderAt
  simp only [DTree.pretty]
  exact shift_of_no_nl k (debugStr_nl D s)

/-- every text of a tree is a clean part and a barrier; which barrier tells the kind of tree -/
private theorem render_split (k : Nat) (t : DTree) (r : Str) (ht : t.Clean) (hr : Stops r) :
    ∃ a x, renderAt D k t ++ r = a ++ x ∧ CleanWord a ∧ Barrier x ∧
      ((∃ s, t = .word s ∧ a = s ∧ x = r) ∨ (∃ s, t = .str s ∧ a = [] ∧ x = debugStr D s ++ r) ∨
       (∃ n fs, t = .tuple n fs ∧ a = n ∧ x = '(' :: '\n' :: (spaces (4 * k) ++ (itemsAt D k fs ++ ')' :: r))) ∨
       (t = .list [] ∧ a = [] ∧ x = '[' :: ']' :: r) ∨
       (∃ u ts, t = .list (u :: ts) ∧ a = [] ∧ x = '[' :: '\n' :: (spaces (4 * k) ++ (itemsAt D k (u :: ts) ++ ']' :: r))) ∨
       (t = .map [] ∧ a = [] ∧ x = '{' :: '}' :: r) ∨
       (∃ u ts, t = .map (u :: ts) ∧ a = [] ∧ x = '{' :: '\n' :: (spaces (4 * k) ++ (entriesAt D k (u :: ts) ++ '}' :: r))) ∨
       (∃ n fs, t = .struct n fs ∧ a = n ∧ x = ' ' :: '{' :: '\n' :: (spaces (4 * k) ++ (entriesAt D k fs ++ '}' :: r)))) := by
  have nil : CleanWord [] := fun c h => (by cases h)
  cases t with
  | word s =>
    simp only [DTree.Clean] at ht
    exact ⟨s, r, by rw [word_render D k ht.2], ht.2, barrier_stops hr, .inl ⟨s, rfl, rfl, rfl⟩⟩
  | str s =>
    refine ⟨[], debugStr D s ++ r, by rw [str_render]; rfl, nil, ?_, .inr (.inl ⟨s, rfl, rfl, rfl⟩)⟩
    exact barrier_cons (by decide) _
  | tuple n fs =>
    simp only [DTree.Clean] at ht
    refine ⟨n, _, ?_, ht.1, ?_, .inr (.inr (.inl ⟨n, fs, rfl, rfl, rfl⟩))⟩
    · rw [renderAt_tuple D k n fs (clean_nl ht.1)]; simp
    · exact barrier_cons (by decide) _
  | list ts =>
    cases ts with
    | nil =>
      refine ⟨[], '[' :: ']' :: r, ?_, nil, barrier_cons (by decide) _, .inr (.inr (.inr (.inl ⟨rfl, rfl, rfl⟩)))⟩
      unfold renderAt; simp only [DTree.pretty]; rfl
    | cons u ts =>
      refine ⟨[], _, ?_, nil, ?_, .inr (.inr (.inr (.inr (.inl ⟨u, ts, rfl, rfl, rfl⟩))))⟩
      · rw [renderAt_list]; simp
      · exact barrier_cons (by decide) _
  | map ts =>
    cases ts with
    | nil =>
      refine ⟨[], '{' :: '}' :: r, ?_, nil, barrier_cons (by decide) _, .inr (.inr (.inr (.inr (.inr (.inl ⟨rfl, rfl, rfl⟩)))))⟩
      unfold renderAt; simp only [DTree.pretty]; rfl
    | cons u ts =>
      refine ⟨[], _, ?_, nil, ?_, .inr (.inr (.inr (.inr (.inr (.inr (.inl ⟨u, ts, rfl, rfl, rfl⟩))))))⟩
      · rw [renderAt_map]; simp
      · exact barrier_cons (by decide) _
  | struct n fs =>
    simp only [DTree.Clean] at ht
    refine ⟨n, _, ?_, ht.1, ?_, .inr (.inr (.inr (.inr (.inr (.inr (.inr ⟨n, fs, rfl, rfl, rfl⟩))))))⟩
    · rw [renderAt_struct D k n fs (clean_nl ht.1)]; simp
    · exact barrier_cons (by decide) _

private theorem space_ne {c : Char} (hc : c ≠ ' ') (r s : Str) : c :: r ≠ spaces 4 ++ s := by
  intro h
  injection h with h _
  exact hc h

/-- two trees with the same text (up to what follows them) are the same -/
def TreeInj (t : DTree) : Prop := ∀ (u : DTree) (k : Nat) (r r' : Str), t.Clean → u.Clean → Stops r → Stops r' →
    renderAt D k t ++ r = renderAt D k u ++ r' → t = u ∧ r = r'

/-- the same for items, with what closes them -/
def ItemsInj (ts : List DTree) : Prop := ∀ (us : List DTree) (k : Nat) (c : Char) (r r' : Str), c ≠ ' ' → CleanItems ts →
    CleanItems us → itemsAt D k ts ++ c :: r = itemsAt D k us ++ c :: r' → ts = us ∧ r = r'

/-- the same for entries -/
def EntriesInj (ts : List (DTree × DTree)) : Prop := ∀ (us : List (DTree × DTree)) (k : Nat) (c : Char) (r r' : Str), c ≠ ' ' →
    CleanEntries ts → CleanEntries us → entriesAt D k ts ++ c :: r = entriesAt D k us ++ c :: r' → ts = us ∧ r = r'

private theorem stops_ne {c : Char} {r s : Str} (hr : Stops r) (h1 : c ≠ ',') (h2 : c ≠ ':') : r ≠ c :: s := by
  intro he
  rcases hr with rfl | ⟨s', rfl | rfl⟩
  · cases he
  · injection he with he _; exact h1 he.symm
  · injection he with he _; exact h2 he.symm

private theorem tree_step (t : DTree) (hs : ∀ n fs, t = .struct n fs → EntriesInj D fs)
    (hi : ∀ n fs, t = .tuple n fs → ItemsInj D fs) (hl : ∀ ts, t = .list ts → ItemsInj D ts)
    (hm : ∀ ts, t = .map ts → EntriesInj D ts) : TreeInj D t := by
  intro u k r r' ht hu hr hr' h
  obtain ⟨a, x, hx, ca, bx, ca'⟩ := render_split D k t r ht hr
  obtain ⟨b, y, hy, cb, bY, cb'⟩ := render_split D k u r' hu hr'
  rw [hx, hy] at h
  obtain ⟨rfl, rfl⟩ := clean_split ca cb bx bY h
  clear hx hy h bx bY
  rcases ca' with ⟨s, rfl, ha, hx⟩ | ⟨s, rfl, ha, hx⟩ | ⟨n, fs, rfl, ha, hx⟩ | ⟨rfl, ha, hx⟩ | ⟨v, ts, rfl, ha, hx⟩ |
      ⟨rfl, ha, hx⟩ | ⟨v, ts, rfl, ha, hx⟩ | ⟨n, fs, rfl, ha, hx⟩ <;>
    rcases cb' with ⟨s', rfl, ha', hx'⟩ | ⟨s', rfl, ha', hx'⟩ | ⟨n', fs', rfl, ha', hx'⟩ | ⟨rfl, ha', hx'⟩ | ⟨v', ts', rfl, ha', hx'⟩ |
      ⟨rfl, ha', hx'⟩ | ⟨v', ts', rfl, ha', hx'⟩ | ⟨n', fs', rfl, ha', hx'⟩ <;>
    subst ha
  -- a word
  · subst ha'; subst hx; exact ⟨rfl, hx'⟩
  · simp only [DTree.Clean] at ht; exact absurd ha' ht.1
  · subst hx; exact absurd hx' (stops_ne hr (by decide) (by decide))
  · simp only [DTree.Clean] at ht; exact absurd ha' ht.1
  · simp only [DTree.Clean] at ht; exact absurd ha' ht.1
  · simp only [DTree.Clean] at ht; exact absurd ha' ht.1
  · simp only [DTree.Clean] at ht; exact absurd ha' ht.1
  · subst hx; exact absurd hx' (stops_ne hr (by decide) (by decide))
  -- a string
  · simp only [DTree.Clean] at hu; exact absurd ha'.symm hu.1
  · have := debugStr_inj D s s' r r' (hx.symm.trans hx'); exact ⟨by rw [this.1], this.2⟩
  · have := hx.symm.trans hx'; injection this with h _; exact absurd h (by decide)
  · have := hx.symm.trans hx'; injection this with h _; exact absurd h (by decide)
  · have := hx.symm.trans hx'; injection this with h _; exact absurd h (by decide)
  · have := hx.symm.trans hx'; injection this with h _; exact absurd h (by decide)
  · have := hx.symm.trans hx'; injection this with h _; exact absurd h (by decide)
  · have := hx.symm.trans hx'; injection this with h _; exact absurd h (by decide)
  -- a tuple
  · subst hx'; exact absurd hx (stops_ne hr' (by decide) (by decide))
  · have := hx.symm.trans hx'; injection this with h _; exact absurd h (by decide)
  · subst ha'
    have h := hx.symm.trans hx'
    injection h with _ h; injection h with _ h
    have h := List.append_cancel_left h
    simp only [DTree.Clean] at ht hu
    have := hi _ _ rfl fs' k ')' r r' (by decide) ht.2 hu.2 h
    exact ⟨by rw [this.1], this.2⟩
  · have := hx.symm.trans hx'; injection this with h _; exact absurd h (by decide)
  · have := hx.symm.trans hx'; injection this with h _; exact absurd h (by decide)
  · have := hx.symm.trans hx'; injection this with h _; exact absurd h (by decide)
  · have := hx.symm.trans hx'; injection this with h _; exact absurd h (by decide)
  · have := hx.symm.trans hx'; injection this with h _; exact absurd h (by decide)
  -- the empty list
  · simp only [DTree.Clean] at hu; exact absurd ha'.symm hu.1
  · have := hx.symm.trans hx'; injection this with h _; exact absurd h (by decide)
  · have := hx.symm.trans hx'; injection this with h _; exact absurd h (by decide)
  · have h := hx.symm.trans hx'; injection h with _ h; injection h with _ h; exact ⟨rfl, h⟩
  · have h := hx.symm.trans hx'; injection h with _ h; injection h with h _; exact absurd h (by decide)
  · have := hx.symm.trans hx'; injection this with h _; exact absurd h (by decide)
  · have := hx.symm.trans hx'; injection this with h _; exact absurd h (by decide)
  · have := hx.symm.trans hx'; injection this with h _; exact absurd h (by decide)
  -- a list
  · simp only [DTree.Clean] at hu; exact absurd ha'.symm hu.1
  · have := hx.symm.trans hx'; injection this with h _; exact absurd h (by decide)
  · have := hx.symm.trans hx'; injection this with h _; exact absurd h (by decide)
  · have h := hx.symm.trans hx'; injection h with _ h; injection h with h _; exact absurd h (by decide)
  · have h := hx.symm.trans hx'
    injection h with _ h; injection h with _ h
    have h := List.append_cancel_left h
    simp only [DTree.Clean] at ht hu
    have := hl _ rfl (v' :: ts') k ']' r r' (by decide) ht hu h
    exact ⟨by rw [this.1], this.2⟩
  · have := hx.symm.trans hx'; injection this with h _; exact absurd h (by decide)
  · have := hx.symm.trans hx'; injection this with h _; exact absurd h (by decide)
  · have := hx.symm.trans hx'; injection this with h _; exact absurd h (by decide)
  -- the empty map
  · simp only [DTree.Clean] at hu; exact absurd ha'.symm hu.1
  · have := hx.symm.trans hx'; injection this with h _; exact absurd h (by decide)
  · have := hx.symm.trans hx'; injection this with h _; exact absurd h (by decide)
  · have := hx.symm.trans hx'; injection this with h _; exact absurd h (by decide)
  · have := hx.symm.trans hx'; injection this with h _; exact absurd h (by decide)
  · have h := hx.symm.trans hx'; injection h with _ h; injection h with _ h; exact ⟨rfl, h⟩
  · have h := hx.symm.trans hx'; injection h with _ h; injection h with h _; exact absurd h (by decide)
  · have := hx.symm.trans hx'; injection this with h _; exact absurd h (by decide)
  -- a map
  · simp only [DTree.Clean] at hu; exact absurd ha'.symm hu.1
  · have := hx.symm.trans hx'; injection this with h _; exact absurd h (by decide)
  · have := hx.symm.trans hx'; injection this with h _; exact absurd h (by decide)
  · have := hx.symm.trans hx'; injection this with h _; exact absurd h (by decide)
  · have := hx.symm.trans hx'; injection this with h _; exact absurd h (by decide)
  · have h := hx.symm.trans hx'; injection h with _ h; injection h with h _; exact absurd h (by decide)
  · have h := hx.symm.trans hx'
    injection h with _ h; injection h with _ h
    have h := List.append_cancel_left h
    simp only [DTree.Clean] at ht hu
    have := hm _ rfl (v' :: ts') k '}' r r' (by decide) ht hu h
    exact ⟨by rw [this.1], this.2⟩
  · have := hx.symm.trans hx'; injection this with h _; exact absurd h (by decide)
  -- a struct
  · subst hx'; exact absurd hx (stops_ne hr' (by decide) (by decide))
  · have := hx.symm.trans hx'; injection this with h _; exact absurd h (by decide)
  · have := hx.symm.trans hx'; injection this with h _; exact absurd h (by decide)
  · have := hx.symm.trans hx'; injection this with h _; exact absurd h (by decide)
  · have := hx.symm.trans hx'; injection this with h _; exact absurd h (by decide)
  · have := hx.symm.trans hx'; injection this with h _; exact absurd h (by decide)
  · have := hx.symm.trans hx'; injection this with h _; exact absurd h (by decide)
  · subst ha'
    have h := hx.symm.trans hx'
    injection h with _ h; injection h with _ h; injection h with _ h
    have h := List.append_cancel_left h
    simp only [DTree.Clean] at ht hu
    have := hs _ _ rfl fs' k '}' r r' (by decide) ht.2 hu.2 h
    exact ⟨by rw [this.1], this.2⟩

private theorem items_step (t : DTree) (ts : List DTree) (ht : TreeInj D t) (hts : ItemsInj D ts) : ItemsInj D (t :: ts) := by
  intro us k c r r' hc h1 h2 h
  cases us with
  | nil =>
    simp only [itemsAt, List.nil_append, List.append_assoc] at h
    exact absurd h.symm (space_ne hc _ _)
  | cons u us =>
    simp only [itemsAt, List.append_assoc] at h
    have h := List.append_cancel_left h
    simp only [CleanItems] at h1 h2
    have h := ht u _ _ _ h1.1 h2.1 (.inr ⟨_, .inl rfl⟩) (.inr ⟨_, .inl rfl⟩) h
    have h3 := h.2
    injection h3 with _ h3; injection h3 with _ h3
    simp only [List.append_eq, List.append_assoc] at h3
    have h4 := hts us k c r r' hc h1.2 h2.2 (List.append_cancel_left h3)
    exact ⟨by rw [h.1, h4.1], h4.2⟩

private theorem entries_step (a b : DTree) (ts : List (DTree × DTree)) (ha : TreeInj D a) (hb : TreeInj D b)
    (hts : EntriesInj D ts) : EntriesInj D ((a, b) :: ts) := by
  intro us k c r r' hc h1 h2 h
  cases us with
  | nil =>
    simp only [entriesAt, List.nil_append, List.append_assoc] at h
    exact absurd h.symm (space_ne hc _ _)
  | cons u us =>
    obtain ⟨a', b'⟩ := u
    simp only [entriesAt, List.append_assoc, List.cons_append] at h
    have h := List.append_cancel_left h
    simp only [CleanEntries] at h1 h2
    have h := ha a' _ _ _ h1.1 h2.1 (.inr ⟨_, .inr rfl⟩) (.inr ⟨_, .inr rfl⟩) h
    have h3 := h.2
    injection h3 with _ h3; injection h3 with _ h3
    have h5 := hb b' _ _ _ h1.2.1 h2.2.1 (.inr ⟨_, .inl rfl⟩) (.inr ⟨_, .inl rfl⟩) h3
    have h6 := h5.2
    injection h6 with _ h6; injection h6 with _ h6
    have h4 := hts us k c r r' hc h1.2.2 h2.2.2 (List.append_cancel_left h6)
    exact ⟨by rw [h.1, h5.1, h4.1], h4.2⟩

theorem tree_inj (t : DTree) : TreeInj D t := by
  refine DTree.rec (motive_1 := fun t => TreeInj D t) (motive_2 := fun ts => ItemsInj D ts)
    (motive_3 := fun es => EntriesInj D es) (motive_4 := fun p => TreeInj D p.1 ∧ TreeInj D p.2)
    ?_ ?_ ?_ ?_ ?_ ?_ ?_ ?_ ?_ ?_ ?_ t
  · intro s
    exact tree_step D _ (fun _ _ h => by cases h) (fun _ _ h => by cases h) (fun _ h => by cases h) (fun _ h => by cases h)
  · intro s
    exact tree_step D _ (fun _ _ h => by cases h) (fun _ _ h => by cases h) (fun _ h => by cases h) (fun _ h => by cases h)
  · intro n fs ih
    exact tree_step D _ (fun _ _ h => by cases h) (fun _ _ h => by cases h; exact ih) (fun _ h => by cases h) (fun _ h => by cases h)
  · intro n fs ih
    exact tree_step D _ (fun _ _ h => by cases h; exact ih) (fun _ _ h => by cases h) (fun _ h => by cases h) (fun _ h => by cases h)
  · intro ts ih
    exact tree_step D _ (fun _ _ h => by cases h) (fun _ _ h => by cases h) (fun _ h => by cases h; exact ih) (fun _ h => by cases h)
  · intro ts ih
    exact tree_step D _ (fun _ _ h => by cases h) (fun _ _ h => by cases h) (fun _ h => by cases h) (fun _ h => by cases h; exact ih)
  · intro us k c r r' hc _ _ h
    cases us with
    | nil => injection h with _ h; exact ⟨rfl, h⟩
    | cons u us =>
      simp only [itemsAt, List.nil_append, List.append_assoc] at h
      exact absurd h (space_ne hc _ _)
  · intro t ts h1 h2
    exact items_step D t ts h1 h2
  · intro us k c r r' hc _ _ h
    cases us with
    | nil => injection h with _ h; exact ⟨rfl, h⟩
    | cons u us =>
      simp only [entriesAt, List.nil_append, List.append_assoc] at h
      exact absurd h (space_ne hc _ _)
  · rintro ⟨a, b⟩ ts h1 h2
    exact entries_step D a b ts h1.1 h1.2 h2
  · intro a b ha hb
    exact ⟨ha, hb⟩

/-- the pretty form determines the tree -/
theorem pretty_inj (t u : DTree) (ht : t.Clean) (hu : u.Clean) (h : t.pretty D = u.pretty D) : t = u :=
  (tree_inj D t u 0 [] [] ht hu (.inl rfl) (.inl rfl) (by unfold renderAt; rw [h])).1

end Verif
