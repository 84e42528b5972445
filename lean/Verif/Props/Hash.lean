import Verif.Model.Hash
import Verif.Props.Equality
/-!
# C62: hashing of keys, labels and numbers

`std` requires of a hash map key that equal keys hash equally, and that a key hashes like what it borrows as. If so,
looking up by text finds the entries of that text whatever the hasher.
-/
set_option autoImplicit false

namespace Verif.Props
open Verif Spec

/-! ## what the tables compute -/

section
variable {K V N : Type} [DecidableEq N] {H : List HashWrite → Nat} {hash : K → List HashWrite} {norm : K → N}

/-- the table holds exactly the entries of the list, each in its bucket -/
def Holds (H : List HashWrite → Nat) (hash : K → List HashWrite) (t : Table K V) (m : HashMap K V) : Prop :=
  ∀ i, t i = m.filter (fun e => H (hash e.1) = i)

theorem filter_insert (hc : ∀ a b, norm a = norm b → hash a = hash b) (k : K) (v : V) (i : Nat) (m : HashMap K V) :
    (HashMap.insert norm k v m).filter (fun e => H (hash e.1) = i) =
      if i = H (hash k) then HashMap.insert norm k v (m.filter (fun e => H (hash e.1) = i))
      else m.filter (fun e => H (hash e.1) = i) := by
  induction m with
  | nil =>
    by_cases h : i = H (hash k)
    · simp [HashMap.insert, h]
    · simp [HashMap.insert, h, Ne.symm h]
  | cons e m ih =>
    obtain ⟨k', v'⟩ := e
    by_cases hk : norm k' = norm k
    · have e : ∀ n, HashMap.insert norm k v ((k', v') :: n) = (k', v) :: n := fun n => by simp [HashMap.insert, hk]
      rw [e]
      have := hc _ _ hk
      by_cases h : i = H (hash k)
      · simp [h, this, e]
      · simp [h, this, Ne.symm h]
    · have e : ∀ n, HashMap.insert norm k v ((k', v') :: n) = (k', v') :: HashMap.insert norm k v n := fun n => by simp [HashMap.insert, hk]
      rw [e]
      by_cases h' : H (hash k') = i
      · rw [List.filter_cons_of_pos (by simpa using h'), ih, List.filter_cons_of_pos (by simpa using h')]
        by_cases h : i = H (hash k)
        · simp [h, e]
        · simp [h]
      · rw [List.filter_cons_of_neg (by simpa using h'), ih, List.filter_cons_of_neg (by simpa using h')]

theorem filter_upsert (hc : ∀ a b, norm a = norm b → hash a = hash b) (k : K) (new : V) (upd : V → V) (i : Nat)
    (m : HashMap K V) :
    (HashMap.upsert norm k new upd m).filter (fun e => H (hash e.1) = i) =
      if i = H (hash k) then HashMap.upsert norm k new upd (m.filter (fun e => H (hash e.1) = i))
      else m.filter (fun e => H (hash e.1) = i) := by
  induction m with
  | nil =>
    by_cases h : i = H (hash k)
    · simp [HashMap.upsert, h]
    · simp [HashMap.upsert, h, Ne.symm h]
  | cons e m ih =>
    obtain ⟨k', v'⟩ := e
    by_cases hk : norm k' = norm k
    · have e : ∀ n, HashMap.upsert norm k new upd ((k', v') :: n) = (k', upd v') :: n := fun n => by simp [HashMap.upsert, hk]
      rw [e]
      have := hc _ _ hk
      by_cases h : i = H (hash k)
      · simp [h, this, e]
      · simp [h, this, Ne.symm h]
    · have e : ∀ n, HashMap.upsert norm k new upd ((k', v') :: n) = (k', v') :: HashMap.upsert norm k new upd n := fun n => by simp [HashMap.upsert, hk]
      rw [e]
      by_cases h' : H (hash k') = i
      · rw [List.filter_cons_of_pos (by simpa using h'), ih, List.filter_cons_of_pos (by simpa using h')]
        by_cases h : i = H (hash k)
        · simp [h, e]
        · simp [h]
      · rw [List.filter_cons_of_neg (by simpa using h'), ih, List.filter_cons_of_neg (by simpa using h')]

theorem holds_run (hc : ∀ a b, norm a = norm b → hash a = hash b) (ops : List (TableOp K V)) :
    ∀ {t : Table K V} {m : HashMap K V}, Holds H hash t m → Holds H hash (t.run H hash norm ops) (HashMap.run norm m ops) := by
  induction ops with
  | nil => intro t m h; exact h
  | cons op ops ih =>
    intro t m h
    cases op with
    | insert k v => exact ih fun i => by rw [filter_insert hc, ← h i]; rfl
    | upsert k new upd => exact ih fun i => by rw [filter_upsert hc, ← h i]; rfl

theorem get_filter {Q : Type} [DecidableEq Q] {borrow : K → Q} {qhash : Q → List HashWrite}
    (hb : ∀ k, hash k = qhash (borrow k)) (q : Q) (m : HashMap K V) :
    HashMap.get borrow q (m.filter (fun e => H (hash e.1) = H (qhash q))) = HashMap.get borrow q m := by
  induction m with
  | nil => rfl
  | cons e m ih =>
    obtain ⟨k, v⟩ := e
    by_cases h : borrow k = q
    · rw [List.filter_cons_of_pos (by simp [hb, h])]
      simp [HashMap.get, h]
    · by_cases h' : H (hash k) = H (qhash q)
      · rw [List.filter_cons_of_pos (by simpa using h')]
        simp [HashMap.get, h, ih]
      · rw [List.filter_cons_of_neg (by simpa using h')]
        simp [HashMap.get, h, ih]

theorem table_get {Q : Type} [DecidableEq Q] {borrow : K → Q} {qhash : Q → List HashWrite}
    (hc : ∀ a b, norm a = norm b → hash a = hash b) (hb : ∀ k, hash k = qhash (borrow k)) (ops : List (TableOp K V)) (q : Q) :
    (Table.empty.run H hash norm ops).get H borrow qhash q = HashMap.get borrow q (HashMap.run norm [] ops) := by
  have h := holds_run (H := H) hc ops (t := Table.empty) (m := []) (fun _ => rfl)
  unfold Table.get
  rw [h]
  exact get_filter hb q _
end

/-- The key written by an operation. -/
def opKey {K V : Type} : TableOp K V → K
  | .insert k _ => k
  | .upsert k _ _ => k

theorem get_isSome {K V Q : Type} [DecidableEq Q] {borrow : K → Q} {q : Q} {m : HashMap K V} :
    (HashMap.get borrow q m).isSome = true ↔ ∃ e ∈ m, borrow e.1 = q := by
  induction m with
  | nil => simp [HashMap.get]
  | cons e m ih =>
    obtain ⟨k, v⟩ := e
    unfold HashMap.get
    by_cases h : borrow k = q
    · simp [h]
    · simp [h, ih]

section
variable {K V N Q : Type} [DecidableEq N] {norm : K → N} {borrow : K → Q}

theorem insert_text (hn : ∀ a b, norm a = norm b → borrow a = borrow b) (k : K) (v : V) (q : Q) (m : HashMap K V) :
    (∃ e ∈ HashMap.insert norm k v m, borrow e.1 = q) ↔ borrow k = q ∨ ∃ e ∈ m, borrow e.1 = q := by
  induction m with
  | nil => simp [HashMap.insert]
  | cons e m ih =>
    obtain ⟨k', v'⟩ := e
    unfold HashMap.insert
    by_cases hk : norm k' = norm k
    · simp only [hk, if_true, List.mem_cons, exists_eq_or_imp, hn _ _ hk]
      exact ⟨fun h => .inr h, fun h => by rcases h with h | h; exact .inl h; exact h⟩
    · simp only [hk, if_false, List.mem_cons, exists_eq_or_imp, ih]
      exact ⟨fun h => by rcases h with h | h | h <;> simp [h], fun h => by rcases h with h | h | h <;> simp [h]⟩

theorem upsert_text (hn : ∀ a b, norm a = norm b → borrow a = borrow b) (k : K) (new : V) (upd : V → V) (q : Q)
    (m : HashMap K V) :
    (∃ e ∈ HashMap.upsert norm k new upd m, borrow e.1 = q) ↔ borrow k = q ∨ ∃ e ∈ m, borrow e.1 = q := by
  induction m with
  | nil => simp [HashMap.upsert]
  | cons e m ih =>
    obtain ⟨k', v'⟩ := e
    unfold HashMap.upsert
    by_cases hk : norm k' = norm k
    · simp only [hk, if_true, List.mem_cons, exists_eq_or_imp, hn _ _ hk]
      exact ⟨fun h => .inr h, fun h => by rcases h with h | h; exact .inl h; exact h⟩
    · simp only [hk, if_false, List.mem_cons, exists_eq_or_imp, ih]
      exact ⟨fun h => by rcases h with h | h | h <;> simp [h], fun h => by rcases h with h | h | h <;> simp [h]⟩

theorem run_text (hn : ∀ a b, norm a = norm b → borrow a = borrow b) (q : Q) (ops : List (TableOp K V)) :
    ∀ m : HashMap K V, (∃ e ∈ HashMap.run norm m ops, borrow e.1 = q) ↔
      (∃ e ∈ m, borrow e.1 = q) ∨ ∃ op ∈ ops, borrow (opKey op) = q := by
  induction ops with
  | nil => intro m; simp [HashMap.run]
  | cons op ops ih =>
    intro m
    cases op with
    | insert k v =>
      simp only [HashMap.run, ih, insert_text hn, List.mem_cons, exists_eq_or_imp, opKey]
      exact ⟨fun h => by rcases h with (h | h) | h <;> simp [h], fun h => by rcases h with h | h | h <;> simp [h]⟩
    | upsert k new upd =>
      simp only [HashMap.run, ih, upsert_text hn, List.mem_cons, exists_eq_or_imp, opKey]
      exact ⟨fun h => by rcases h with (h | h) | h <;> simp [h], fun h => by rcases h with h | h | h <;> simp [h]⟩
end

/-! ## C62: keys of maps and labels of blocks -/

theorem key_norm_text {a b : Key} (h : a.norm = b.norm) : a.text = b.text := by
  cases a <;> cases b <;> simp [Key.norm] at h <;> exact h

theorem label_norm_text {a b : BlockLabel} (h : a.norm = b.norm) : a.text = b.text := by
  cases a <;> cases b <;> simp [BlockLabel.norm] at h <;> exact h

/-- C62: equal keys of maps hash equally, and a key hashes like its text. -/
theorem c62_key_contract (a b : Key) : (a.norm = b.norm → a.hash = b.hash) ∧ a.hash = strHash a.text :=
  ⟨fun h => by unfold Key.hash; rw [key_norm_text h], rfl⟩

/-- C62: equal labels hash equally, and a label hashes like its text. -/
theorem c62_label_contract (a b : BlockLabel) : (a.eq b = true → a.hash = b.hash) ∧ a.hash = strHash a.text := by
  refine ⟨fun h => ?_, rfl⟩
  rw [label_eq_iff] at h
  cases h with
  | string => rfl
  | ident _ _ h => simp only [BlockLabel.hash, BlockLabel.text, h]

/-- C62: whatever the hasher, a map with `Key`s filled by any operations finds by text exactly what the list of entries
(the model of hash maps everywhere in these proofs) holds. -/
theorem c62_key_lookup (V : Type) (H : List HashWrite → Nat) (ops : List (TableOp Key V)) (q : Str) :
    (Table.empty.run H Key.hash Key.norm ops).get H Key.text strHash q = HashMap.get Key.text q (HashMap.run Key.norm [] ops) :=
  table_get (hash := Key.hash) (borrow := Key.text) (fun a b h => (c62_key_contract a b).1 h) (fun k => rfl) ops q

/-- C62: the same for labels of blocks. -/
theorem c62_label_lookup (V : Type) (H : List HashWrite → Nat) (ops : List (TableOp BlockLabel V)) (q : Str) :
    (Table.empty.run H BlockLabel.hash BlockLabel.norm ops).get H BlockLabel.text strHash q =
      HashMap.get BlockLabel.text q (HashMap.run BlockLabel.norm [] ops) :=
  table_get (hash := BlockLabel.hash) (borrow := BlockLabel.text) (fun a b h => by unfold BlockLabel.hash; rw [label_norm_text h]) (fun k => rfl) ops q

/-- C62: whatever the hasher and however the map was filled, looking up a text in a map with `Key`s succeeds exactly if a
key with that text, identifier or string, was put in. -/
theorem c62_key_found (V : Type) (H : List HashWrite → Nat) (ops : List (TableOp Key V)) (q : Str) :
    ((Table.empty.run H Key.hash Key.norm ops).get H Key.text strHash q).isSome = true ↔ ∃ op ∈ ops, (opKey op).text = q := by
  rw [c62_key_lookup, get_isSome, run_text (fun _ _ => key_norm_text)]
  simp

/-- C62: the same for labels of blocks. -/
theorem c62_label_found (V : Type) (H : List HashWrite → Nat) (ops : List (TableOp BlockLabel V)) (q : Str) :
    ((Table.empty.run H BlockLabel.hash BlockLabel.norm ops).get H BlockLabel.text strHash q).isSome = true ↔
      ∃ op ∈ ops, (opKey op).text = q := by
  rw [c62_label_lookup, get_isSome, run_text (fun _ _ => label_norm_text)]
  simp

example : ((Table.empty.run (fun ws => ws.length) Key.hash Key.norm
    [.insert (.identifier (.borrowed ['a'])) 1, .insert (.string (.borrowed ['a'])) 2, .insert (.string (.ownedS ['b'])) 3]).get
    (fun ws => ws.length) Key.text strHash ['b']) = some 3 := by decide

/-! ## C62: comparing with strings -/

/-- C62: a label compares with a string as its text does, of whichever kind it is. -/
theorem c62_label_eq_str (l : BlockLabel) (s : Str) : l.eqStr s = true ↔ l.text = s := by
  cases l <;> simp [BlockLabel.eqStr, BlockLabel.text]

/-- C62: a key of an object compares with a string only if it is an identifier; an expression equals no string, although it
borrows as one. -/
theorem c62_object_key_eq_str (k : ObjKey) (s : Str) : k.eqStr s = true ↔ ∃ t, k = .ident t ∧ k.borrow = s := by
  cases k with
  | ident t => simp [ObjKey.eqStr, ObjKey.borrow]
  | expr t => simp [ObjKey.eqStr]

/-- C62: both kinds of keys of objects borrow as their text. -/
theorem c62_object_key_borrow (s : CowStr) : (ObjKey.ident s).borrow = s.str ∧ (ObjKey.expr s).borrow = s.str := ⟨rfl, rfl⟩

/-! ## C62: keys of objects -/

/-- C62: equal keys of objects hash equally. -/
theorem c62_object_key_contract (a b : ObjKey) (h : a.eq b = true) : a.hash = b.hash := by
  rw [objKey_eq_iff] at h
  cases h with
  | ident _ _ h => simp only [ObjKey.hash, h]
  | expr _ _ h => simp only [ObjKey.hash, h]

/-- C62: keys of objects hash equally only if they are equal: the same text as an identifier and as an expression hashes
differently. -/
theorem c62_object_key_hash_iff (a b : ObjKey) : a.hash = b.hash ↔ a.eq b = true := by
  refine ⟨fun h => ?_, c62_object_key_contract a b⟩
  rw [objKey_eq_iff]
  cases a <;> cases b <;> simp [ObjKey.hash, strHash] at h
  · exact .ident _ _ h
  · exact .expr _ _ h

/-- C62: numbers hash equally exactly if they were written alike: same input text and same parts. -/
theorem c62_number_hash_iff (a b : Number) : a.hash = b.hash ↔
    a.input.str = b.input.str ∧ a.positive = b.positive ∧ a.whole.map CowStr.str = b.whole.map CowStr.str ∧
    a.fraction.map CowStr.str = b.fraction.map CowStr.str ∧
    a.exponent.map (fun e => (e.positive, e.exponent.str)) = b.exponent.map (fun e => (e.positive, e.exponent.str)) := by
  obtain ⟨i, p, w, f, e⟩ := a
  obtain ⟨i', p', w', f', e'⟩ := b
  cases w <;> cases w' <;> cases f <;> cases f' <;> cases e <;> cases e' <;>
    simp [Number.hash, optHash, strHash, Exponent.hash]

/-- C62, where the full property fails: a key of an object never hashes like the text it borrows as. -/
theorem c62_object_key_borrow_hash (k : ObjKey) : k.hash ≠ strHash k.borrow := by
  cases k <;> simp [ObjKey.hash, strHash]

/-- C62, where the full property fails: so with a hasher that separates different sequences of writes, looking up any text in
any map with keys of objects finds nothing, however the map was filled. -/
theorem c62_object_key_not_found (V : Type) (H : List HashWrite → Nat) (hH : ∀ a b, H a = H b → a = b)
    (ops : List (TableOp ObjKey V)) (q : Str) :
    (Table.empty.run H ObjKey.hash ObjKey.norm ops).get H ObjKey.borrow strHash q = none := by
  have hc : ∀ a b : ObjKey, a.norm = b.norm → a.hash = b.hash := by
    intro a b h
    cases a <;> cases b <;> simp [ObjKey.norm] at h <;> simp [ObjKey.hash, h]
  have h := holds_run (H := H) hc ops (t := Table.empty) (m := []) (fun _ => rfl)
  unfold Table.get
  rw [h]
  generalize HashMap.run ObjKey.norm [] ops = m
  have : m.filter (fun e => decide (H e.1.hash = H (strHash q))) = [] := by
    rw [List.filter_eq_nil_iff]
    intro e _ hh
    have := hH _ _ (of_decide_eq_true hh)
    rcases e with ⟨k, v⟩
    cases k <;> simp [ObjKey.hash, strHash] at this
  rw [this]
  rfl

/-- C62: looking up a key of an object as such does find it. -/
theorem c62_object_key_lookup (V : Type) (H : List HashWrite → Nat) (ops : List (TableOp ObjKey V)) (b : Bool) (q : Str) :
    (Table.empty.run H ObjKey.hash ObjKey.norm ops).get H ObjKey.norm
      (fun n => ObjKey.hash (if n.1 then .expr (.borrowed n.2) else .ident (.borrowed n.2))) (b, q) =
    HashMap.get ObjKey.norm (b, q) (HashMap.run ObjKey.norm [] ops) := by
  refine table_get (fun a b h => ?_) (fun k => ?_) ops _
  · cases a <;> cases b <;> simp [ObjKey.norm] at h <;> simp [ObjKey.hash, h]
  · cases k <;> rfl

/-! ## C62: numbers -/

theorem cowOpt_hash {a b : Option CowStr} (h : a.map CowStr.str = b.map CowStr.str) :
    optHash (fun s => strHash s.str) a = optHash (fun s => strHash s.str) b := by
  cases a <;> cases b <;> simp at h <;> simp [optHash, h]

theorem isNumber_unique {t : Str} {a b : Number} (ha : IsNumber t a) (hb : IsNumber t b) : a = b := by
  have h1 := number_complete (r := []) ⟨t, (List.append_nil t).symm, ha, fun u m r _ _ =>
    r (List.prefix_nil.1 m)⟩
  have h2 := number_complete (r := []) ⟨t, (List.append_nil t).symm, hb, fun u m r _ _ =>
    r (List.prefix_nil.1 m)⟩
  rw [h1] at h2
  cases h2
  rfl

/-- C62: parsed numbers hash equally exactly if they are written the same. -/
theorem c62_number_hash (s t : Str) (a b : Number) (ha : IsNumber s a) (hb : IsNumber t b) : a.hash = b.hash ↔ s = t := by
  constructor
  · intro h
    unfold Number.hash strHash at h
    simp only [List.append_assoc, List.cons_append, List.nil_append, List.cons.injEq, HashWrite.str.injEq] at h
    have := h.1
    rw [isNumber_text ha, isNumber_text hb] at this
    exact this
  · intro h
    subst h
    rw [isNumber_unique ha hb]

/-- C62, where the full property fails: numbers that are equal but written differently, as `1` and `+1`, hash differently. -/
theorem c62_equal_numbers_hash_differently (O : FloatOps) (s t : Str) (a b : Number) (ha : IsNumber s a) (hb : IsNumber t b)
    (hst : s ≠ t) (_ : a.eq O b = true) : a.hash ≠ b.hash := fun h => hst ((c62_number_hash s t a b ha hb).1 h)

example : toyOne.eq toyFloats toyPlusOne = true ∧ toyOne.hash ≠ toyPlusOne.hash :=
  ⟨by decide +kernel, c62_equal_numbers_hash_differently toyFloats _ _ _ _ toyOne_is toyPlusOne_is (by decide) (by decide +kernel)⟩

/-- C62: hashes do not depend on who owns the texts. -/
theorem c62_owned_hash (n : Number) (k : Key) (l : BlockLabel) (o : ObjKey) :
    n.asOwned.hash = n.hash ∧ k.asOwned.hash = k.hash ∧ l.asOwned.hash = l.hash ∧ o.asOwned.hash = o.hash := by
  refine ⟨?_, ?_, ?_, ?_⟩
  · rcases n with ⟨i, p, w, f, e⟩
    cases w <;> cases f <;> cases e <;> rfl
  · cases k <;> rfl
  · cases l <;> rfl
  · cases o <;> rfl

end Verif.Props
