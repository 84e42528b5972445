import Verif.Spec.Value
import Verif.Props.Containers
/-! # Lemmas on value trees and merging -/
set_option autoImplicit false

namespace Verif
open Spec Props

/-! ## induction -/

section
variable {P : Value → Prop} {Q : MapValues → Prop}
  (hs : ∀ v, v.variant ≠ .list → v.variant ≠ .object → v.variant ≠ .block → P v)
  (hl : ∀ l, (∀ v ∈ l, P v) → P (.list l)) (ho : ∀ l, (∀ m ∈ l, Q m) → P (.object l))
  (hb : ∀ b : VBlock, (∀ p ∈ b.entries, Q p.2) → P (.block b)) (hm : ∀ m : MapValues, (∀ p ∈ m.entries, P p.2) → Q m)
include hs hl ho hb hm
set_option linter.unusedSectionVars false

mutual
theorem Value.induct : ∀ v, P v
  | .null => hs _ (by simp [Value.variant]) (by simp [Value.variant]) (by simp [Value.variant])
  | .integer _ => hs _ (by simp [Value.variant]) (by simp [Value.variant]) (by simp [Value.variant])
  | .float _ => hs _ (by simp [Value.variant]) (by simp [Value.variant]) (by simp [Value.variant])
  | .boolean _ => hs _ (by simp [Value.variant]) (by simp [Value.variant]) (by simp [Value.variant])
  | .string _ => hs _ (by simp [Value.variant]) (by simp [Value.variant]) (by simp [Value.variant])
  | .list l => hl l (Value.inductList l)
  | .object l => ho l (Value.inductMaps l)
  | .block b => hb b (Value.inductBlock b)
theorem Value.inductList : ∀ l : List Value, ∀ v ∈ l, P v
  | [] => by simp
  | v :: l => List.forall_mem_cons.mpr ⟨Value.induct v, Value.inductList l⟩
theorem Value.inductMaps : ∀ l : List (KVP Key Value), ∀ m ∈ l, Q m
  | [] => by simp
  | v :: l => List.forall_mem_cons.mpr ⟨Value.inductMap v, Value.inductMaps l⟩
theorem Value.inductMap : ∀ m : KVP Key Value, Q m
  | .merged l => hm _ (Value.inductEntries l)
  | .unmerged l => hm _ (Value.inductEntries l)
theorem Value.inductEntries : ∀ l : List (Key × Value), ∀ p ∈ l, P p.2
  | [] => by simp
  | (k, v) :: l => List.forall_mem_cons.mpr ⟨Value.induct v, Value.inductEntries l⟩
theorem Value.inductBlock : ∀ b : KVP (List Str) (KVP Key Value), ∀ p ∈ b.entries, Q p.2
  | .merged l => Value.inductBodies l
  | .unmerged l => Value.inductBodies l
theorem Value.inductBodies : ∀ l : List (List Str × KVP Key Value), ∀ p ∈ l, Q p.2
  | [] => by simp
  | (k, v) :: l => List.forall_mem_cons.mpr ⟨Value.inductMap v, Value.inductBodies l⟩
end

theorem Value.inductBoth : (∀ v, P v) ∧ ∀ m, Q m :=
  ⟨Value.induct hs hl ho hb hm, Value.inductMap hs hl ho hb hm⟩
end

/-! ## equations -/

theorem mergeList_ok {l l' : List Value} :
    Value.mergeList l = .ok l' ↔ AllPairs (fun v w => v.merge = .ok w) l l' := by
  induction l generalizing l' with
  | nil =>
    simp only [Value.mergeList]
    constructor
    · intro h; cases h; exact .nil
    · intro h; cases h; rfl
  | cons v l ih =>
    simp only [Value.mergeList]
    constructor
    · intro h
      cases hv : v.merge with
      | error e => simp [hv] at h
      | ok w =>
        simp only [hv] at h
        cases hr : Value.mergeList l with
        | error e => simp [hr, Except.map] at h
        | ok r =>
          simp only [hr, Except.map, Except.ok.injEq] at h
          subst h
          exact .cons _ _ _ _ hv (ih.mp hr)
    · intro h
      cases h with
      | cons _ _ _ _ h1 h2 => rw [h1, ih.mpr h2]; rfl

theorem mergeMaps_ok {l l' : List MapValues} :
    Value.mergeMaps l = .ok l' ↔ AllPairs (fun v w => Value.mergeMap v = .ok w) l l' := by
  induction l generalizing l' with
  | nil =>
    simp only [Value.mergeMaps]
    constructor
    · intro h; cases h; exact .nil
    · intro h; cases h; rfl
  | cons v l ih =>
    simp only [Value.mergeMaps]
    constructor
    · intro h
      cases hv : Value.mergeMap v with
      | error e => simp [hv] at h
      | ok w =>
        simp only [hv] at h
        cases hr : Value.mergeMaps l with
        | error e => simp [hr, Except.map] at h
        | ok r =>
          simp only [hr, Except.map, Except.ok.injEq] at h
          subst h
          exact .cons _ _ _ _ hv (ih.mp hr)
    · intro h
      cases h with
      | cons _ _ _ _ h1 h2 => rw [h1, ih.mpr h2]; rfl

theorem mergeBodies_ok {l l' : List (List Str × MapValues)} :
    Value.mergeBodies l = .ok l' ↔ AllPairs (fun v w => v.1 = w.1 ∧ Value.mergeMap v.2 = .ok w.2) l l' := by
  induction l generalizing l' with
  | nil =>
    simp only [Value.mergeBodies]
    constructor
    · intro h; cases h; exact .nil
    · intro h; cases h; rfl
  | cons v l ih =>
    obtain ⟨k, v⟩ := v
    simp only [Value.mergeBodies]
    constructor
    · intro h
      cases hv : Value.mergeMap v with
      | error e => simp [hv] at h
      | ok w =>
        simp only [hv] at h
        cases hr : Value.mergeBodies l with
        | error e => simp [hr, Except.map] at h
        | ok r =>
          simp only [hr, Except.map, Except.ok.injEq] at h
          subst h
          exact .cons _ _ _ _ ⟨rfl, hv⟩ (ih.mp hr)
    · intro h
      cases h with
      | cons _ b _ _ h1 h2 =>
        obtain ⟨k', w⟩ := b
        obtain ⟨rfl, h1⟩ := h1
        simp only at h1
        rw [h1, ih.mpr h2]; rfl

theorem mergeBlock_eq (b : VBlock) : Value.mergeBlock b = Value.mergeBodies b.entries := by cases b <;> rfl

/-- Every element has a partner iff the whole list has. -/
theorem allPairs_exists {α β : Type} {R : α → β → Prop} {l : List α} :
    (∃ l', AllPairs R l l') ↔ ∀ a ∈ l, ∃ b, R a b := by
  induction l with
  | nil => exact ⟨fun _ a h => (by cases h), fun _ => ⟨[], .nil⟩⟩
  | cons a l ih =>
    constructor
    · rintro ⟨_, h⟩ x hx
      cases h with
      | cons _ b _ bs h1 h2 =>
        rcases List.mem_cons.mp hx with rfl | hx
        · exact ⟨b, h1⟩
        · exact ih.mp ⟨bs, h2⟩ x hx
    · intro h
      obtain ⟨b, hb⟩ := h a (by simp)
      obtain ⟨bs, hbs⟩ := ih.mpr fun x hx => h x (by simp [hx])
      exact ⟨b :: bs, .cons _ _ _ _ hb hbs⟩

theorem merge_variant {v w : Value} (h : v.merge = .ok w) : w.variant = v.variant := by
  cases v with
  | list l =>
    simp only [Value.merge] at h
    cases hr : Value.mergeList l <;> simp [hr, Except.map] at h
    subst h; rfl
  | object l =>
    simp only [Value.merge] at h
    cases hr : Value.mergeMaps l <;> simp [hr, Except.map] at h
    subst h; rfl
  | block b =>
    simp only [Value.merge] at h
    cases hr : Value.mergeBlock b <;> simp [hr, Except.map] at h
    subst h; rfl
  | _ => simp only [Value.merge, Except.ok.injEq] at h; subst h; rfl

theorem mayShare_iff (a b : Value) :
    MayShare a b ↔ (a.variant = .object ∧ b.variant = .object) ∨ (a.variant = .block ∧ b.variant = .block) := by
  constructor
  · rintro (_ | _) <;> simp [Value.variant]
  · intro h
    cases a <;> simp [Value.variant] at h <;> cases b <;> simp at h
    · exact .objects _ _
    · exact .blocks _ _

/-! ## adding entries -/

/-- The value stored under a key after adding `v`. -/
def combined : Option Value → Value → Value
  | some (.object m), .object i => .object (m ++ i)
  | some (.block b), .block i => .block (b.extend id i.entries)
  | _, v => v

theorem combineValues_ok {k : Str} {old new w : Value} :
    combineValues k old new = .ok w ↔ MayShare old new ∧ w = combined (some old) new := by
  cases old <;> cases new <;> simp [combineValues, combined, mayShare_iff, Value.variant, eq_comm]

theorem combineValues_error {k : Str} {old new : Value} {e : ValueErr} :
    combineValues k old new = .error e → ClashError k old new e := by
  cases old with
  | object m =>
    cases new <;> simp only [combineValues] <;> intro h <;> first | (cases h; done) | (
      simp only [Except.error.injEq] at h
      subst h
      exact .object (.object m) _ rfl (by simp [Value.variant]))
  | block b =>
    cases new <;> simp only [combineValues] <;> intro h <;> first | (cases h; done) | (
      simp only [Except.error.injEq] at h
      subst h
      exact .block (.block b) _ rfl (by simp [Value.variant]))
  | _ =>
    simp only [combineValues]
    intro h
    simp only [Except.error.injEq] at h
    subst h
    exact .illegal _ _ (by simp [Value.variant]) (by simp [Value.variant])

/-- What adding an entry does to lookups. -/
theorem addEntry_ok {m m' : HashMap Key Value} {k : Key} {v : Value} (h : addEntry m k v = .ok m') :
    (∀ old, HashMap.get Key.norm k.norm m = some old → MayShare old v) ∧
    (∀ q, HashMap.get Key.norm q m' =
      if k.norm = q then some (combined (HashMap.get Key.norm q m) v) else HashMap.get Key.norm q m) ∧
    (m'.map fun p => p.1.norm) = if k.norm ∈ m.map (fun p => p.1.norm) then m.map fun p => p.1.norm
      else m.map (fun p => p.1.norm) ++ [k.norm] := by
  induction m generalizing m' with
  | nil =>
    simp only [addEntry, Except.ok.injEq] at h
    subst h
    simp [HashMap.get, combined]
  | cons p m ih =>
    obtain ⟨k', v'⟩ := p
    simp only [addEntry] at h
    split at h
    · rename_i hk
      cases hc : combineValues k'.text v' v with
      | error e => simp [hc, Except.map] at h
      | ok w =>
        simp only [hc, Except.map, Except.ok.injEq] at h
        subst h
        obtain ⟨h1, rfl⟩ := combineValues_ok.mp hc
        refine ⟨?_, ?_, ?_⟩
        · intro old ho
          simp only [HashMap.get, if_pos hk, Option.some.injEq] at ho
          exact ho ▸ h1
        · intro q
          by_cases hq : k.norm = q
          · simp [HashMap.get, hk, hq]
          · simp [HashMap.get, hk, hq]
        · simp [hk]
    · rename_i hk
      cases hr : addEntry m k v with
      | error e => simp [hr, Except.map] at h
      | ok r =>
        simp only [hr, Except.map, Except.ok.injEq] at h
        subst h
        obtain ⟨h1, h2, h3⟩ := ih hr
        refine ⟨?_, ?_, ?_⟩
        · intro old ho
          simp only [HashMap.get, if_neg hk] at ho
          exact h1 old ho
        · intro q
          by_cases hq : k.norm = q
          · subst hq
            simp [HashMap.get, hk, h2]
          · by_cases hq' : k'.norm = q
            · simp [HashMap.get, hq, hq']
            · simp [HashMap.get, hq, hq', h2]
        · have hne : ¬ k.norm = k'.norm := fun e => hk e.symm
          simp only [List.map_cons, h3, List.mem_cons, hne, false_or]
          split <;> simp

theorem addEntry_exists {m : HashMap Key Value} {k : Key} {v : Value} :
    (∃ m', addEntry m k v = .ok m') ↔ ∀ old, HashMap.get Key.norm k.norm m = some old → MayShare old v := by
  constructor
  · rintro ⟨m', h⟩
    exact (addEntry_ok h).1
  · induction m with
    | nil => exact fun _ => ⟨_, rfl⟩
    | cons p m ih =>
      obtain ⟨k', v'⟩ := p
      intro h
      simp only [addEntry]
      by_cases hk : k'.norm = k.norm
      · rw [if_pos hk]
        have := h v' (by simp [HashMap.get, hk])
        rw [combineValues_ok.mpr ⟨this, rfl⟩]
        exact ⟨_, rfl⟩
      · rw [if_neg hk]
        obtain ⟨m', hm⟩ := ih fun old ho => h old (by simpa [HashMap.get, hk] using ho)
        rw [hm]
        exact ⟨_, rfl⟩

/-- An error of adding describes the clash with the stored value. -/
theorem addEntry_error {m : HashMap Key Value} {k : Key} {v : Value} {e : ValueErr} (h : addEntry m k v = .error e) :
    ∃ k' old, (k', old) ∈ m ∧ k'.norm = k.norm ∧ HashMap.get Key.norm k.norm m = some old ∧ ClashError k'.text old v e := by
  induction m with
  | nil => simp [addEntry] at h
  | cons p m ih =>
    obtain ⟨k', v'⟩ := p
    simp only [addEntry] at h
    split at h
    · rename_i hk
      cases hc : combineValues k'.text v' v with
      | ok w => simp [hc, Except.map] at h
      | error e' =>
        simp only [hc, Except.map, Except.error.injEq] at h
        subst h
        exact ⟨k', v', by simp, hk, by simp [HashMap.get, hk], combineValues_error hc⟩
    · rename_i hk
      cases hr : addEntry m k v with
      | ok r => simp [hr, Except.map] at h
      | error e' =>
        simp only [hr, Except.map, Except.error.injEq] at h
        subst h
        obtain ⟨k2, old, h1, h2, h3, h4⟩ := ih hr
        exact ⟨k2, old, by simp [h1], h2, by simpa [HashMap.get, hk] using h3, h4⟩

/-- Adding several entries. -/
def addAll (m : HashMap Key Value) : List (Key × Value) → Except ValueErr (HashMap Key Value)
  | [] => .ok m
  | (k, v) :: es => match addEntry m k v with
    | .error e => .error e
    | .ok m => addAll m es

theorem mergeEntries_ok {acc m : HashMap Key Value} {es : List (Key × Value)} :
    Value.mergeEntries acc es = .ok m ↔
      ∃ es', AllPairs (fun a b => a.1 = b.1 ∧ a.2.merge = .ok b.2) es es' ∧ addAll acc es' = .ok m := by
  induction es generalizing acc with
  | nil =>
    simp only [Value.mergeEntries]
    constructor
    · intro h; exact ⟨[], .nil, h⟩
    · rintro ⟨_, h1, h2⟩; cases h1; exact h2
  | cons p es ih =>
    obtain ⟨k, v⟩ := p
    simp only [Value.mergeEntries]
    constructor
    · intro h
      cases hv : v.merge with
      | error e => simp [hv] at h
      | ok w =>
        simp only [hv] at h
        cases ha : addEntry acc k w with
        | error e => simp [ha] at h
        | ok acc' =>
          simp only [ha] at h
          obtain ⟨es', h1, h2⟩ := ih.mp h
          exact ⟨(k, w) :: es', .cons _ _ _ _ ⟨rfl, hv⟩ h1, by simp [addAll, ha, h2]⟩
    · rintro ⟨_, h1, h2⟩
      cases h1 with
      | cons _ b _ es' h3 h4 =>
        obtain ⟨k', w⟩ := b
        obtain ⟨rfl, h3⟩ := h3
        simp only at h3
        simp only [addAll] at h2
        rw [h3]
        cases ha : addEntry acc k w with
        | error e => simp [ha] at h2
        | ok acc' =>
          simp only [ha] at h2 ⊢
          exact ih.mpr ⟨es', h4, h2⟩

/-- Fold of `combined` over the values listed under a key. -/
def combinedAll (o : Option Value) (vs : List Value) : Option Value :=
  vs.foldl (fun o v => some (combined o v)) o

theorem addAll_get {m m' : HashMap Key Value} {es : List (Key × Value)} (h : addAll m es = .ok m') (q : Bool × Str) :
    HashMap.get Key.norm q m' = combinedAll (HashMap.get Key.norm q m) (valuesUnder Key.norm q es) := by
  induction es generalizing m with
  | nil => simp only [addAll, Except.ok.injEq] at h; subst h; rfl
  | cons p es ih =>
    obtain ⟨k, v⟩ := p
    simp only [addAll] at h
    cases ha : addEntry m k v with
    | error e => simp [ha] at h
    | ok m1 =>
      simp only [ha] at h
      rw [ih h, (addEntry_ok ha).2.1 q]
      by_cases hk : k.norm = q
      · simp [valuesUnder, hk, combinedAll]
      · simp [valuesUnder, hk]

theorem addAll_nodup {m m' : HashMap Key Value} {es : List (Key × Value)} (h : addAll m es = .ok m')
    (hn : (m.map fun p => p.1.norm).Nodup) : (m'.map fun p => p.1.norm).Nodup := by
  induction es generalizing m with
  | nil => simp only [addAll, Except.ok.injEq] at h; subst h; exact hn
  | cons p es ih =>
    obtain ⟨k, v⟩ := p
    simp only [addAll] at h
    cases ha : addEntry m k v with
    | error e => simp [ha] at h
    | ok m1 =>
      simp only [ha] at h
      refine ih h ?_
      rw [(addEntry_ok ha).2.2]
      split
      · exact hn
      · rename_i hk
        rw [List.nodup_append]
        refine ⟨hn, by simp, ?_⟩
        intro a ha b hb
        simp only [List.mem_singleton] at hb
        subst hb
        exact fun e => hk (e ▸ ha)

theorem combined_variant {old v : Value} (h : MayShare old v) : (combined (some old) v).variant = v.variant := by
  cases h <;> rfl

theorem mayShare_congr {a a' b b' : Value} (ha : a.variant = a'.variant) (hb : b.variant = b'.variant) :
    MayShare a b ↔ MayShare a' b' := by simp [mayShare_iff, ha, hb]

theorem addAll_exists {m : HashMap Key Value} {es : List (Key × Value)} :
    (∃ m', addAll m es = .ok m') ↔
      NoClash es ∧ ∀ p ∈ es, ∀ old, HashMap.get Key.norm p.1.norm m = some old → MayShare old p.2 := by
  induction es generalizing m with
  | nil => simp [addAll, NoClash]
  | cons p es ih =>
    obtain ⟨k, v⟩ := p
    simp only [addAll]
    constructor
    · rintro ⟨m', h⟩
      cases ha : addEntry m k v with
      | error e => simp [ha] at h
      | ok m1 =>
        simp only [ha] at h
        obtain ⟨h1, h2⟩ := ih.mp ⟨m', h⟩
        obtain ⟨g1, g2, -⟩ := addEntry_ok ha
        have hshare : ∀ p ∈ es, k.norm = p.1.norm → MayShare v p.2 := by
          intro p hp hk
          have hget := g2 p.1.norm
          rw [if_pos hk] at hget
          have hs := h2 p hp _ hget
          cases ho : HashMap.get Key.norm p.1.norm m with
          | none => rw [ho] at hs; simpa [combined] using hs
          | some old =>
            rw [ho] at hs
            exact (mayShare_congr (combined_variant (g1 old (hk ▸ ho))) rfl).mp hs
        refine ⟨List.Pairwise.cons (fun p hp hk => hshare p hp hk) h1, ?_⟩
        intro p hp old ho
        rcases List.mem_cons.mp hp with rfl | hp
        · exact g1 old ho
        · by_cases hk : k.norm = p.1.norm
          · have h3 := g1 old (hk ▸ ho)
            have h4 := hshare p hp hk
            rw [mayShare_iff] at h3 h4 ⊢
            rcases h3 with ⟨a, b⟩ | ⟨a, b⟩ <;> rcases h4 with ⟨c, d⟩ | ⟨c, d⟩
            · exact .inl ⟨a, d⟩
            · rw [b] at c; cases c
            · rw [b] at c; cases c
            · exact .inr ⟨a, d⟩
          · refine h2 p hp old ?_
            rw [g2, if_neg hk]
            exact ho
    · rintro ⟨h1, h2⟩
      simp only [NoClash, List.pairwise_cons] at h1
      obtain ⟨m1, ha⟩ := addEntry_exists.mpr fun old ho => h2 (k, v) (by simp) old ho
      obtain ⟨g1, g2, -⟩ := addEntry_ok ha
      simp only [ha]
      refine ih.mpr ⟨h1.2, ?_⟩
      intro p hp old ho
      rw [g2] at ho
      split at ho
      · rename_i hk
        simp only [Option.some.injEq] at ho
        subst ho
        have h4 := h1.1 p hp hk
        cases hg : HashMap.get Key.norm p.1.norm m with
        | none => simpa [combined] using h4
        | some old =>
          exact (mayShare_congr (combined_variant (g1 old (hk ▸ hg))) rfl).mpr h4
      · exact h2 p (by simp [hp]) old ho

/-! ## success -/

theorem noClash_congr {es es' : List (Key × Value)}
    (h : AllPairs (fun a b => a.1 = b.1 ∧ a.2.merge = .ok b.2) es es') : NoClash es ↔ NoClash es' := by
  unfold NoClash
  induction h with
  | nil => simp
  | cons a b as bs h1 h2 ih =>
    simp only [List.pairwise_cons, ih]
    refine and_congr ?_ Iff.rfl
    obtain ⟨k, v⟩ := a
    obtain ⟨k', w⟩ := b
    obtain ⟨rfl, hv⟩ := h1
    simp only at hv ⊢
    clear ih
    induction h2 with
    | nil => simp
    | cons c d cs ds h3 h4 ih =>
      simp only [List.forall_mem_cons, ih]
      refine and_congr ?_ Iff.rfl
      rw [h3.1, mayShare_congr (merge_variant hv) (merge_variant h3.2)]

theorem mergeEntries_exists {es : List (Key × Value)} :
    (∃ m, Value.mergeEntries [] es = .ok m) ↔ (∀ p ∈ es, ∃ w, p.2.merge = .ok w) ∧ NoClash es := by
  constructor
  · rintro ⟨m, h⟩
    obtain ⟨es', h1, h2⟩ := mergeEntries_ok.mp h
    refine ⟨?_, (noClash_congr h1).mpr (addAll_exists.mp ⟨m, h2⟩).1⟩
    intro p hp
    obtain ⟨b, hb⟩ := allPairs_exists.mp ⟨es', h1⟩ p hp
    exact ⟨b.2, hb.2⟩
  · rintro ⟨h1, h2⟩
    obtain ⟨es', h3⟩ : ∃ es' : List (Key × Value), AllPairs (fun a b => a.1 = b.1 ∧ a.2.merge = .ok b.2) es es' := by
      rw [allPairs_exists]
      intro p hp
      obtain ⟨w, hw⟩ := h1 p hp
      exact ⟨(p.1, w), rfl, hw⟩
    obtain ⟨m, hm⟩ := addAll_exists (m := []) |>.mpr ⟨(noClash_congr h3).mp h2, fun p hp old ho => (by simp [HashMap.get] at ho)⟩
    exact ⟨m, mergeEntries_ok.mpr ⟨es', h3, hm⟩⟩

theorem except_map_ok {α β : Type} {x : Except ValueErr α} {f : α → β} :
    (∃ y, x.map f = .ok y) ↔ ∃ y, x = .ok y := by
  cases x <;> simp [Except.map]

theorem merge_exists : (∀ v : Value, (∃ w, v.merge = .ok w) ↔ ∀ es, MapIn v es → NoClash es) ∧
    ∀ m : MapValues, (∃ w, Value.mergeMap m = .ok w) ↔ ∀ es, MapInMap m es → NoClash es := by
  apply Value.inductBoth
  · intro v h1 h2 h3
    refine ⟨fun _ es h => ?_, fun _ => ⟨v, ?_⟩⟩
    · cases h <;> simp [Value.variant] at h1 h2 h3
    · cases v <;> simp [Value.variant] at h1 h2 h3 <;> rfl
  · intro l ih
    simp only [Value.merge]
    rw [except_map_ok]
    simp only [mergeList_ok]
    rw [allPairs_exists]
    constructor
    · intro h es hes
      cases hes with
      | list _ v _ hv h' => exact (ih v hv).mp (h v hv) es h'
    · intro h v hv
      exact (ih v hv).mpr fun es hes => h es (.list _ v _ hv hes)
  · intro l ih
    simp only [Value.merge]
    rw [except_map_ok]
    simp only [mergeMaps_ok]
    rw [allPairs_exists]
    constructor
    · intro h es hes
      cases hes with
      | object _ v _ hv h' => exact (ih v hv).mp (h v hv) es h'
    · intro h v hv
      exact (ih v hv).mpr fun es hes => h es (.object _ v _ hv hes)
  · intro b ih
    simp only [Value.merge]
    rw [except_map_ok]
    simp only [mergeBlock_eq, mergeBodies_ok]
    rw [allPairs_exists]
    constructor
    · intro h es hes
      cases hes with
      | block _ p _ hp h' =>
        obtain ⟨b', -, hb⟩ := h p hp
        exact (ih p hp).mp ⟨_, hb⟩ es h'
    · intro h p hp
      obtain ⟨w, hw⟩ := (ih p hp).mpr fun es hes => h es (.block _ p _ hp hes)
      exact ⟨(p.1, w), rfl, hw⟩
  · intro m ih
    cases m with
    | merged m =>
      refine ⟨fun _ es h => ?_, fun _ => ⟨_, rfl⟩⟩
      cases h
    | unmerged l =>
      simp only [Value.mergeMap]
      rw [except_map_ok, mergeEntries_exists]
      constructor
      · rintro ⟨h1, h2⟩ es hes
        cases hes with
        | here => exact h2
        | entry _ p _ hp h' => exact (ih p hp).mp (h1 p hp) es h'
      · intro h
        exact ⟨fun p hp => (ih p hp).mpr fun es hes => h es (.entry _ p _ hp hes), h l (.here l)⟩

end Verif
