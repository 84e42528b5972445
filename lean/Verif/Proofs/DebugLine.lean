import Verif.Model.DebugLine
import Verif.Proofs.Debug
/-! # The one-line `Debug` form determines what it shows -/
set_option autoImplicit false

namespace Verif

variable (D : DebugStyle)

/-- what can follow a tree on a line -/
private def Ends (r : Str) : Prop := r = [] ∨ (∃ c s, r = c :: s ∧ c ∈ [',', ':', ')', ']', '}']) ∨ ∃ s, r = ' ' :: '}' :: s

/-- what closes items or entries -/
private def Closes (r : Str) : Prop := (∃ c s, r = c :: s ∧ c ∈ [')', ']', '}']) ∨ ∃ s, r = ' ' :: '}' :: s

private theorem closes_ends {r : Str} (h : Closes r) : Ends r := by
  rcases h with ⟨c, s, rfl, hc⟩ | ⟨s, rfl⟩
  · exact .inr (.inl ⟨c, s, rfl, by simp only [List.mem_cons, List.not_mem_nil, or_false] at hc ⊢; exact .inr (.inr hc)⟩)
  · exact .inr (.inr ⟨s, rfl⟩)

private theorem barrier_ends {r : Str} (h : Ends r) : ∀ c s, r = c :: s → wordChar c = false := by
  intro c s hr
  rcases h with rfl | ⟨d, s', rfl, hd⟩ | ⟨s', rfl⟩
  · cases hr
  · injection hr with hr _
    subst hr
    simp only [List.mem_cons, List.not_mem_nil, or_false] at hd
    rcases hd with rfl | rfl | rfl | rfl | rfl <;> decide
  · injection hr with hr _
    subst hr
    decide

private theorem words_split : ∀ {a b x y : Str}, CleanWord a → CleanWord b → (∀ c s, x = c :: s → wordChar c = false) →
    (∀ c s, y = c :: s → wordChar c = false) → a ++ x = b ++ y → a = b ∧ x = y
  | [], [], _, _, _, _, _, _, h => ⟨rfl, h⟩
  | [], c :: b, _, _, _, hb, hx, _, h => by
    have h1 := hx c (b ++ _) (by simpa using h)
    rw [hb c (.head _)] at h1; cases h1
  | c :: a, [], _, _, ha, _, _, hy, h => by
    have h1 := hy c (a ++ _) (by simpa using h.symm)
    rw [ha c (.head _)] at h1; cases h1
  | c :: a, d :: b, x, y, ha, hb, hx, hy, h => by
    injection h with h1 h2
    have := words_split (fun e he => ha e (.tail _ he)) (fun e he => hb e (.tail _ he)) hx hy h2
    exact ⟨by rw [h1, this.1], this.2⟩

private theorem barrier_char {c : Char} (h : wordChar c = false) (s : Str) : ∀ d r, c :: s = d :: r → wordChar d = false := by
  intro d r he; injection he with he _; rw [← he]; exact h

/-- the text of a tree is a clean part and a barrier; which barrier tells the kind of tree -/
private theorem line_split (t : DTree) (r : Str) (ht : t.Clean) (hr : Ends r) :
    ∃ a x, t.line D ++ r = a ++ x ∧ CleanWord a ∧ (∀ c s, x = c :: s → wordChar c = false) ∧
      ((t = .word a ∧ a ≠ [] ∧ x = r) ∨ (∃ s, t = .str s ∧ a = [] ∧ x = debugStr D s ++ r) ∨
       (∃ fs, t = .tuple a fs ∧ x = '(' :: (DTree.lineItems D fs ++ ')' :: r)) ∨
       (∃ ts, t = .list ts ∧ a = [] ∧ x = '[' :: (DTree.lineItems D ts ++ ']' :: r)) ∨
       (∃ es, t = .map es ∧ a = [] ∧ x = '{' :: (DTree.lineEntries D es ++ '}' :: r)) ∨
       (∃ fs, t = .struct a fs ∧ x = ' ' :: '{' :: ' ' :: (DTree.lineEntries D fs ++ ' ' :: '}' :: r))) := by
  have nil : CleanWord [] := fun c h => (by cases h)
  cases t with
  | word s =>
    simp only [DTree.Clean] at ht
    exact ⟨s, r, by simp only [DTree.line], ht.2, barrier_ends hr, .inl ⟨rfl, ht.1, rfl⟩⟩
  | str s =>
    exact ⟨[], debugStr D s ++ r, by simp only [DTree.line, List.nil_append], nil, barrier_char (by decide) _, .inr (.inl ⟨s, rfl, rfl, rfl⟩)⟩
  | tuple n fs =>
    simp only [DTree.Clean] at ht
    exact ⟨n, _, by simp [DTree.line], ht.1, barrier_char (by decide) _, .inr (.inr (.inl ⟨fs, rfl, rfl⟩))⟩
  | list ts =>
    exact ⟨[], _, by simp [DTree.line], nil, barrier_char (by decide) _, .inr (.inr (.inr (.inl ⟨ts, rfl, rfl, rfl⟩)))⟩
  | map es =>
    exact ⟨[], _, by simp [DTree.line], nil, barrier_char (by decide) _, .inr (.inr (.inr (.inr (.inl ⟨es, rfl, rfl, rfl⟩))))⟩
  | struct n fs =>
    simp only [DTree.Clean] at ht
    exact ⟨n, _, by simp [DTree.line], ht.1, barrier_char (by decide) _, .inr (.inr (.inr (.inr (.inr ⟨fs, rfl, rfl⟩))))⟩

/-- no tree begins like what closes items -/
private theorem line_opens (t : DTree) (r : Str) (ht : t.Clean) {r' : Str} (hr' : Closes r') : t.line D ++ r ≠ r' := by
  intro h
  have key : ∀ c s, r' = c :: s → wordChar c = false := barrier_ends (closes_ends hr')
  have first : ∀ (n : Str) (c : Char) (s : Str), CleanWord n → c ∉ [')', ']', '}'] → (∀ z, c :: s ≠ ' ' :: '}' :: z) → n ++ c :: s ≠ r' := by
    intro n c s hn hc hs he
    cases n with
    | nil =>
      rcases hr' with ⟨d, z, rfl, hd⟩ | ⟨z, rfl⟩
      · injection he with he _; exact hc (he ▸ hd)
      · exact hs z he
    | cons d n =>
      have := key d _ he.symm
      rw [hn d (.head _)] at this; cases this
  have nil : CleanWord [] := fun c h => (by cases h)
  cases t with
  | word s =>
    simp only [DTree.Clean] at ht
    simp only [DTree.line] at h
    cases s with
    | nil => exact ht.1 rfl
    | cons c s =>
      have := key c _ h.symm
      rw [ht.2 c (.head _)] at this; cases this
  | str s =>
    exact first [] '"' _ nil (by decide) (fun z hz => by injection hz with hz _; exact absurd hz (by decide)) (by simpa [DTree.line, debugStr] using h)
  | tuple n fs =>
    simp only [DTree.Clean] at ht
    exact first n '(' _ ht.1 (by decide) (fun z hz => by injection hz with hz _; exact absurd hz (by decide)) (by simpa [DTree.line] using h)
  | list ts =>
    exact first [] '[' _ nil (by decide) (fun z hz => by injection hz with hz _; exact absurd hz (by decide)) (by simpa [DTree.line] using h)
  | map es =>
    exact first [] '{' _ nil (by decide) (fun z hz => by injection hz with hz _; exact absurd hz (by decide)) (by simpa [DTree.line] using h)
  | struct n fs =>
    simp only [DTree.Clean] at ht
    exact first n ' ' ('{' :: ' ' :: (DTree.lineEntries D fs ++ ' ' :: '}' :: r)) ht.1 (by decide) (fun z hz => by injection hz with _ hz; injection hz with hz _; exact absurd hz (by decide))
      (by simpa [DTree.line] using h)

/-- two trees with the same text (up to what follows them) are the same -/
private def LineInj (t : DTree) : Prop := ∀ (u : DTree) (r r' : Str), t.Clean → u.Clean → Ends r → Ends r' →
    t.line D ++ r = u.line D ++ r' → t = u ∧ r = r'

/-- the same for items, with what closes them -/
private def MoreInj (ts : List DTree) : Prop := ∀ (us : List DTree) (r r' : Str), Closes r → Closes r' → CleanItems ts →
    CleanItems us → DTree.lineMore D ts ++ r = DTree.lineMore D us ++ r' → ts = us ∧ r = r'

/-- the same for items from the first on -/
private def LineItemsInj (ts : List DTree) : Prop := ∀ (us : List DTree) (r r' : Str), Closes r → Closes r' → CleanItems ts →
    CleanItems us → DTree.lineItems D ts ++ r = DTree.lineItems D us ++ r' → ts = us ∧ r = r'

/-- the same for entries -/
private def MoreEntriesInj (ts : List (DTree × DTree)) : Prop := ∀ (us : List (DTree × DTree)) (r r' : Str), Closes r → Closes r' →
    CleanEntries ts → CleanEntries us → DTree.lineMoreEntries D ts ++ r = DTree.lineMoreEntries D us ++ r' → ts = us ∧ r = r'

/-- the same for entries from the first on -/
private def LineEntriesInj (ts : List (DTree × DTree)) : Prop := ∀ (us : List (DTree × DTree)) (r r' : Str), Closes r → Closes r' →
    CleanEntries ts → CleanEntries us → DTree.lineEntries D ts ++ r = DTree.lineEntries D us ++ r' → ts = us ∧ r = r'

private theorem ends_ne {c : Char} {r s : Str} (hr : Ends r) (hc : c ∉ [',', ':', ')', ']', '}']) (h : r = c :: s) :
    ∃ z, r = ' ' :: '}' :: z := by
  rcases hr with rfl | ⟨d, s', rfl, hd⟩ | h'
  · cases h
  · injection h with h _; exact absurd (h ▸ hd) hc
  · exact h'

private theorem ends_not {c : Char} {r s : Str} (hr : Ends r) (hc : c ∉ [',', ':', ')', ']', '}', ' ']) : r ≠ c :: s := by
  intro h
  have hc' : c ∉ [',', ':', ')', ']', '}'] ∧ c ≠ ' ' := by
    simp only [List.mem_cons, List.not_mem_nil, or_false, not_or] at hc ⊢
    exact ⟨⟨hc.1, hc.2.1, hc.2.2.1, hc.2.2.2.1, hc.2.2.2.2.1⟩, hc.2.2.2.2.2⟩
  obtain ⟨z, hz⟩ := ends_ne hr hc'.1 h
  rw [h] at hz
  injection hz with hz _
  exact hc'.2 hz

private theorem ends_not_struct {r s : Str} (hr : Ends r) : r ≠ ' ' :: '{' :: s := by
  intro h
  obtain ⟨z, hz⟩ := ends_ne hr (by decide) h
  rw [h] at hz
  injection hz with _ hz; injection hz with hz _
  exact absurd hz (by decide)

private theorem heads {c d : Char} {s s' : Str} (h : c ≠ d) : c :: s ≠ d :: s' := by
  intro he; injection he with he _; exact h he

private theorem line_step (t : DTree) (hs : ∀ n fs, t = .struct n fs → LineEntriesInj D fs)
    (hi : ∀ n fs, t = .tuple n fs → LineItemsInj D fs) (hl : ∀ ts, t = .list ts → LineItemsInj D ts)
    (hm : ∀ ts, t = .map ts → LineEntriesInj D ts) : LineInj D t := by
  intro u r r' ht hu hr hr' h
  obtain ⟨a, x, hx, ca, bx, ca'⟩ := line_split D t r ht hr
  obtain ⟨b, y, hy, cb, bY, cb'⟩ := line_split D u r' hu hr'
  rw [hx, hy] at h
  obtain ⟨rfl, rfl⟩ := words_split ca cb bx bY h
  clear hx hy h bx bY
  rcases ca' with ⟨rfl, na, rfl⟩ | ⟨s, rfl, rfl, rfl⟩ | ⟨fs, rfl, rfl⟩ | ⟨ts, rfl, rfl, rfl⟩ | ⟨ts, rfl, rfl, rfl⟩ | ⟨fs, rfl, rfl⟩
  -- a word
  · rcases cb' with ⟨rfl, _, rfl⟩ | ⟨s', _, ha, _⟩ | ⟨fs', _, hx⟩ | ⟨ts', _, ha, _⟩ | ⟨ts', _, ha, _⟩ | ⟨fs', _, hx⟩
    · exact ⟨rfl, rfl⟩
    · exact absurd ha na
    · exact absurd hx (ends_not hr (by decide))
    · exact absurd ha na
    · exact absurd ha na
    · exact absurd hx (ends_not_struct hr)
  -- a string
  · rcases cb' with ⟨_, nb, _⟩ | ⟨s', rfl, _, hx⟩ | ⟨fs', _, hx⟩ | ⟨ts', _, _, hx⟩ | ⟨ts', _, _, hx⟩ | ⟨fs', _, hx⟩
    · exact absurd rfl nb
    · have := debugStr_inj D s s' r r' hx; exact ⟨by rw [this.1], this.2⟩
    · exact absurd hx (heads (by decide))
    · exact absurd hx (heads (by decide))
    · exact absurd hx (heads (by decide))
    · exact absurd hx (heads (by decide))
  -- a tuple
  · rcases cb' with ⟨_, _, hx⟩ | ⟨s', _, _, hx⟩ | ⟨fs', rfl, hx⟩ | ⟨ts', _, _, hx⟩ | ⟨ts', _, _, hx⟩ | ⟨fs', _, hx⟩
    · exact absurd hx.symm (ends_not hr' (by decide))
    · exact absurd hx (heads (by decide))
    · simp only [DTree.Clean] at ht hu
      injection hx with _ hx
      have := hi _ _ rfl fs' _ _ (.inl ⟨')', r, rfl, by decide⟩) (.inl ⟨')', r', rfl, by decide⟩) ht.2 hu.2 hx
      exact ⟨by rw [this.1], (List.cons.inj this.2).2⟩
    · exact absurd hx (heads (by decide))
    · exact absurd hx (heads (by decide))
    · exact absurd hx (heads (by decide))
  -- a list
  · rcases cb' with ⟨_, nb, _⟩ | ⟨s', _, _, hx⟩ | ⟨fs', _, hx⟩ | ⟨ts', rfl, _, hx⟩ | ⟨ts', _, _, hx⟩ | ⟨fs', _, hx⟩
    · exact absurd rfl nb
    · exact absurd hx (heads (by decide))
    · exact absurd hx (heads (by decide))
    · simp only [DTree.Clean] at ht hu
      injection hx with _ hx
      have := hl _ rfl ts' _ _ (.inl ⟨']', r, rfl, by decide⟩) (.inl ⟨']', r', rfl, by decide⟩) ht hu hx
      exact ⟨by rw [this.1], (List.cons.inj this.2).2⟩
    · exact absurd hx (heads (by decide))
    · exact absurd hx (heads (by decide))
  -- a map
  · rcases cb' with ⟨_, nb, _⟩ | ⟨s', _, _, hx⟩ | ⟨fs', _, hx⟩ | ⟨ts', _, _, hx⟩ | ⟨ts', rfl, _, hx⟩ | ⟨fs', _, hx⟩
    · exact absurd rfl nb
    · exact absurd hx (heads (by decide))
    · exact absurd hx (heads (by decide))
    · exact absurd hx (heads (by decide))
    · simp only [DTree.Clean] at ht hu
      injection hx with _ hx
      have := hm _ rfl ts' _ _ (.inl ⟨'}', r, rfl, by decide⟩) (.inl ⟨'}', r', rfl, by decide⟩) ht hu hx
      exact ⟨by rw [this.1], (List.cons.inj this.2).2⟩
    · exact absurd hx (heads (by decide))
  -- a struct
  · rcases cb' with ⟨_, _, hx⟩ | ⟨s', _, _, hx⟩ | ⟨fs', _, hx⟩ | ⟨ts', _, _, hx⟩ | ⟨ts', _, _, hx⟩ | ⟨fs', rfl, hx⟩
    · exact absurd hx.symm (ends_not_struct hr')
    · exact absurd hx (heads (by decide))
    · exact absurd hx (heads (by decide))
    · exact absurd hx (heads (by decide))
    · exact absurd hx (heads (by decide))
    · simp only [DTree.Clean] at ht hu
      injection hx with _ hx; injection hx with _ hx; injection hx with _ hx
      have := hs _ _ rfl fs' _ _ (.inr ⟨r, rfl⟩) (.inr ⟨r', rfl⟩) ht.2 hu.2 hx
      exact ⟨by rw [this.1], (List.cons.inj (List.cons.inj this.2).2).2⟩

/-- what follows an item -/
private theorem ends_more (ts : List DTree) {r : Str} (hr : Closes r) : Ends (DTree.lineMore D ts ++ r) := by
  cases ts with
  | nil => simp only [DTree.lineMore, List.nil_append]; exact closes_ends hr
  | cons t ts => exact .inr (.inl ⟨',', ' ' :: (t.line D ++ DTree.lineMore D ts ++ r), by simp [DTree.lineMore], by decide⟩)

private theorem ends_moreEntries (ts : List (DTree × DTree)) {r : Str} (hr : Closes r) : Ends (DTree.lineMoreEntries D ts ++ r) := by
  cases ts with
  | nil => simp only [DTree.lineMoreEntries, List.nil_append]; exact closes_ends hr
  | cons t ts =>
    exact .inr (.inl ⟨',', ' ' :: (t.1.line D ++ ':' :: ' ' :: (t.2.line D ++ DTree.lineMoreEntries D ts ++ r)), by simp [DTree.lineMoreEntries],
      by decide⟩)

private theorem closes_comma {r s : Str} (hr : Closes r) : r ≠ ',' :: s := by
  rintro rfl
  rcases hr with ⟨c, z, h, hc⟩ | ⟨z, h⟩
  · injection h with h _; subst h; exact absurd hc (by decide)
  · injection h with h _; exact absurd h (by decide)

private theorem more_nil : MoreInj D [] := by
  intro us r r' h1 h2 _ _ h
  cases us with
  | nil => exact ⟨rfl, by simpa [DTree.lineMore] using h⟩
  | cons u us =>
    simp only [DTree.lineMore, List.nil_append, List.cons_append] at h
    exact absurd h (closes_comma h1)

private theorem more_cons (t : DTree) (ts : List DTree) (ht : LineInj D t) (hts : MoreInj D ts) : MoreInj D (t :: ts) := by
  intro us r r' h1 h2 c1 c2 h
  cases us with
  | nil =>
    simp only [DTree.lineMore, List.nil_append, List.cons_append] at h
    exact absurd h.symm (closes_comma h2)
  | cons u us =>
    simp only [CleanItems] at c1 c2
    simp only [DTree.lineMore, List.append_assoc, List.cons_append, List.nil_append] at h
    injection h with _ h; injection h with _ h
    have h3 := ht u _ _ c1.1 c2.1 (ends_more D ts h1) (ends_more D us h2) h
    have h4 := hts us r r' h1 h2 c1.2 c2.2 h3.2
    exact ⟨by rw [h3.1, h4.1], h4.2⟩

private theorem items_nil : LineItemsInj D [] := by
  intro us r r' h1 h2 _ c2 h
  cases us with
  | nil => exact ⟨rfl, by simpa [DTree.lineItems] using h⟩
  | cons u us =>
    simp only [CleanItems] at c2
    simp only [DTree.lineItems, List.nil_append, List.append_assoc] at h
    exact absurd h.symm (line_opens D u _ c2.1 h1)

private theorem items_cons (t : DTree) (ts : List DTree) (ht : LineInj D t) (hts : MoreInj D ts) : LineItemsInj D (t :: ts) := by
  intro us r r' h1 h2 c1 c2 h
  cases us with
  | nil =>
    simp only [CleanItems] at c1
    simp only [DTree.lineItems, List.nil_append, List.append_assoc] at h
    exact absurd h (line_opens D t _ c1.1 h2)
  | cons u us =>
    simp only [CleanItems] at c1 c2
    simp only [DTree.lineItems, List.append_assoc] at h
    have h3 := ht u _ _ c1.1 c2.1 (ends_more D ts h1) (ends_more D us h2) h
    have h4 := hts us r r' h1 h2 c1.2 c2.2 h3.2
    exact ⟨by rw [h3.1, h4.1], h4.2⟩

private theorem ends_colon (s : Str) : Ends (':' :: s) := .inr (.inl ⟨':', s, rfl, by decide⟩)

private theorem pair_inj (a b u v : DTree) (x y : Str) (ha : LineInj D a) (hb : LineInj D b) (ca : a.Clean) (cb : b.Clean) (cu : u.Clean)
    (cv : v.Clean) (hx : Ends x) (hy : Ends y) (h : a.line D ++ ':' :: ' ' :: (b.line D ++ x) = u.line D ++ ':' :: ' ' :: (v.line D ++ y)) :
    a = u ∧ b = v ∧ x = y := by
  have h3 := ha u _ _ ca cu (ends_colon _) (ends_colon _) h
  have h4 := h3.2
  injection h4 with _ h4; injection h4 with _ h4
  have h5 := hb v _ _ cb cv hx hy h4
  exact ⟨h3.1, h5.1, h5.2⟩

private theorem moreEntries_nil : MoreEntriesInj D [] := by
  intro us r r' h1 h2 _ _ h
  cases us with
  | nil => exact ⟨rfl, by simpa [DTree.lineMoreEntries] using h⟩
  | cons u us =>
    simp only [DTree.lineMoreEntries, List.nil_append, List.cons_append] at h
    exact absurd h (closes_comma h1)

private theorem moreEntries_cons (a b : DTree) (ts : List (DTree × DTree)) (ha : LineInj D a) (hb : LineInj D b) (hts : MoreEntriesInj D ts) :
    MoreEntriesInj D ((a, b) :: ts) := by
  intro us r r' h1 h2 c1 c2 h
  cases us with
  | nil =>
    simp only [DTree.lineMoreEntries, List.nil_append, List.cons_append] at h
    exact absurd h.symm (closes_comma h2)
  | cons u us =>
    obtain ⟨u, v⟩ := u
    simp only [CleanEntries] at c1 c2
    simp only [DTree.lineMoreEntries, List.append_assoc, List.cons_append, List.nil_append] at h
    injection h with _ h; injection h with _ h
    obtain ⟨rfl, rfl, h3⟩ := pair_inj D a b u v _ _ ha hb c1.1 c1.2.1 c2.1 c2.2.1 (ends_moreEntries D ts h1) (ends_moreEntries D us h2) h
    have h4 := hts us r r' h1 h2 c1.2.2 c2.2.2 h3
    exact ⟨by rw [h4.1], h4.2⟩

private theorem entries_nil : LineEntriesInj D [] := by
  intro us r r' h1 h2 _ c2 h
  cases us with
  | nil => exact ⟨rfl, by simpa [DTree.lineEntries] using h⟩
  | cons u us =>
    simp only [CleanEntries] at c2
    simp only [DTree.lineEntries, List.nil_append, List.append_assoc] at h
    exact absurd h.symm (line_opens D u.1 _ c2.1 h1)

private theorem entries_cons (a b : DTree) (ts : List (DTree × DTree)) (ha : LineInj D a) (hb : LineInj D b) (hts : MoreEntriesInj D ts) :
    LineEntriesInj D ((a, b) :: ts) := by
  intro us r r' h1 h2 c1 c2 h
  cases us with
  | nil =>
    simp only [CleanEntries] at c1
    simp only [DTree.lineEntries, List.nil_append, List.append_assoc] at h
    exact absurd h (line_opens D a _ c1.1 h2)
  | cons u us =>
    obtain ⟨u, v⟩ := u
    simp only [CleanEntries] at c1 c2
    simp only [DTree.lineEntries, List.append_assoc, List.cons_append, List.nil_append] at h
    obtain ⟨rfl, rfl, h3⟩ := pair_inj D a b u v _ _ ha hb c1.1 c1.2.1 c2.1 c2.2.1 (ends_moreEntries D ts h1) (ends_moreEntries D us h2) h
    have h4 := hts us r r' h1 h2 c1.2.2 c2.2.2 h3
    exact ⟨by rw [h4.1], h4.2⟩

private theorem line_tree_inj (t : DTree) : LineInj D t := by
  refine DTree.rec (motive_1 := fun t => LineInj D t) (motive_2 := fun ts => LineItemsInj D ts ∧ MoreInj D ts)
    (motive_3 := fun es => LineEntriesInj D es ∧ MoreEntriesInj D es) (motive_4 := fun p => LineInj D p.1 ∧ LineInj D p.2)
    ?_ ?_ ?_ ?_ ?_ ?_ ?_ ?_ ?_ ?_ ?_ t
  · intro s
    exact line_step D _ (fun _ _ h => by cases h) (fun _ _ h => by cases h) (fun _ h => by cases h) (fun _ h => by cases h)
  · intro s
    exact line_step D _ (fun _ _ h => by cases h) (fun _ _ h => by cases h) (fun _ h => by cases h) (fun _ h => by cases h)
  · intro n fs ih
    exact line_step D _ (fun _ _ h => by cases h) (fun _ _ h => by cases h; exact ih.1) (fun _ h => by cases h) (fun _ h => by cases h)
  · intro n fs ih
    exact line_step D _ (fun _ _ h => by cases h; exact ih.1) (fun _ _ h => by cases h) (fun _ h => by cases h) (fun _ h => by cases h)
  · intro ts ih
    exact line_step D _ (fun _ _ h => by cases h) (fun _ _ h => by cases h) (fun _ h => by cases h; exact ih.1) (fun _ h => by cases h)
  · intro ts ih
    exact line_step D _ (fun _ _ h => by cases h) (fun _ _ h => by cases h) (fun _ h => by cases h) (fun _ h => by cases h; exact ih.1)
  · exact ⟨items_nil D, more_nil D⟩
  · intro t ts h1 h2
    exact ⟨items_cons D t ts h1 h2.2, more_cons D t ts h1 h2.2⟩
  · exact ⟨entries_nil D, moreEntries_nil D⟩
  · rintro ⟨a, b⟩ ts h1 h2
    exact ⟨entries_cons D a b ts h1.1 h1.2 h2.2, moreEntries_cons D a b ts h1.1 h1.2 h2.2⟩
  · intro a b ha hb
    exact ⟨ha, hb⟩

/-- the text on one line determines the tree -/
theorem line_inj (t u : DTree) (ht : t.Clean) (hu : u.Clean) (h : t.line D = u.line D) : t = u :=
  (line_tree_inj D t u [] [] ht hu (.inl rfl) (.inl rfl) (by rw [h])).1

end Verif
