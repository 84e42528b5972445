import Verif.Spec.EditRead
import Verif.Proofs.EditRead
import Verif.Props.Edit
import Verif.Props.ObjectTypes
/-!
# C90: what changing a value in a document does to the value read from it
-/
set_option autoImplicit false

namespace Verif.Props
open Verif Spec

section
variable (P : F64Parse) (I : F64OfInt) (ord : HashOrder) (U : CharClass)

/-- C90: a value anywhere in a body is replaced by another; the map read from the body has the same names, and the same values
under all names but that of the attribute or of the outermost block in which the value is. -/
theorem c90_map (t : Ty) (p : ValuePlace) (e e' : Expr) (v v' : DVal)
    (h : deserialize P I ord (.map t) (.body (p.fill e)) = .ok v) (h' : deserialize P I ord (.map t) (.body (p.fill e')) = .ok v') :
    ∃ vs vs', v = .entries vs ∧ v' = .entries vs' ∧ AgreeExcept p.place.name vs vs' := by
  obtain ⟨vs, rfl, -, h1⟩ := c59_map P I ord t _ v h
  obtain ⟨vs', rfl, -, h2⟩ := c59_map P I ord t _ v' h'
  have hs := ((c59_map_succeeds_iff P I ord t _).1 ⟨_, h⟩).2.2
  have hs' := ((c59_map_succeeds_iff P I ord t _).1 ⟨_, h'⟩).2.2
  have keys : ∀ {vs : List (Str × DVal)} {b : Body}, (∀ k n, EntryOf b k n → ∃ w, deserialize P I ord t n = .ok w) →
      (∀ k w, (k, w) ∈ vs ↔ ∃ n, EntryOf b k n ∧ deserialize P I ord t n = .ok w) →
      ∀ j, j ∈ vs.map Prod.fst ↔ ∃ n, EntryOf b j n := by
    intro vs b hs h1 j
    constructor
    · intro hj
      obtain ⟨⟨k, w⟩, hm, rfl⟩ := List.mem_map.1 hj
      obtain ⟨n, hn, -⟩ := (h1 k w).1 hm
      exact ⟨n, hn⟩
    · rintro ⟨n, hn⟩
      obtain ⟨w, hw⟩ := hs j n hn
      exact List.mem_map.2 ⟨(j, w), (h1 j w).2 ⟨n, hn, hw⟩, rfl⟩
  refine ⟨vs, vs', rfl, rfl, fun j => ?_, fun j w hj => ?_⟩
  · rw [keys hs h1, keys hs' h2]
    exact ⟨names_mono p e e', names_mono p e' e⟩
  · rw [h1, h2]
    simp only [entry_same p e e' j hj]

private theorem field_names {R : Str × Ty → Str × DVal → Prop} (hR : ∀ f q, R f q → q.1 = f.1) :
    ∀ {fs : List (Str × Ty)} {vs : List (Str × DVal)}, AllRel R fs vs → vs.map Prod.fst = fs.map Prod.fst
  | _, _, .nil => rfl
  | _, _, .cons f q fs vs h h' => by simp only [List.map_cons, hR f q h, field_names hR h']

/-- C90: and the new body can be read as a map exactly if the entry in which the value is can be read. -/
theorem c90_map_succeeds_iff (t : Ty) (p : ValuePlace) (e e' : Expr) (v : DVal)
    (h : deserialize P I ord (.map t) (.body (p.fill e)) = .ok v) :
    (∃ v', deserialize P I ord (.map t) (.body (p.fill e')) = .ok v') ↔
      ∀ n, EntryOf (p.fill e') p.place.name n → ∃ w, deserialize P I ord t n = .ok w := by
  obtain ⟨hd, hc, hs⟩ := (c59_map_succeeds_iff P I ord t _).1 ⟨_, h⟩
  rw [c59_map_succeeds_iff]
  refine ⟨fun h n hn => h.2.2 _ n hn, fun hw => ⟨distinct_mono p e e' hd, fun hn => hc (clash_mono p e' e hn), fun k n hn => ?_⟩⟩
  by_cases hk : k = p.place.name
  · subst hk; exact hw n hn
  · exact hs k n ((entry_same p e e' k hk n).2 hn)

/-- C90: the same for structs: all fields but the one with this name keep their values. -/
theorem c90_struct (fs : List (Str × Ty)) (hfs : (fs.map Prod.fst).Nodup) (p : ValuePlace) (e e' : Expr) (v v' : DVal)
    (h : deserialize P I ord (.struct fs) (.body (p.fill e)) = .ok v)
    (h' : deserialize P I ord (.struct fs) (.body (p.fill e')) = .ok v') :
    ∃ vs vs', v = .entries vs ∧ v' = .entries vs' ∧ AgreeExcept p.place.name vs vs' := by
  obtain ⟨-, -, ⟨vs, rfl, h1⟩, -⟩ := (c58_struct P I ord fs hfs _ v).1 h
  obtain ⟨-, -, ⟨vs', rfl, h2⟩, -⟩ := (c58_struct P I ord fs hfs _ v').1 h'
  have k1 := field_names (fun _ _ h => h.1) h1
  have k2 := field_names (fun _ _ h => h.1) h2
  have one : ∀ {b b' : Body} {vs vs' : List (Str × DVal)} {j : Str} {w : DVal},
      (∀ n, EntryOf b j n ↔ EntryOf b' j n) → Distinct (attrs b) → ¬ NameClash b →
      AllRel (fun f q => q.1 = f.1 ∧ ((∃ n, EntryOf b f.1 n ∧ deserialize P I ord f.2 n = .ok q.2) ∨
         ((∀ n, ¬ EntryOf b f.1 n) ∧ (∃ t, f.2 = .option t) ∧ q.2 = .none))) fs vs →
      AllRel (fun f q => q.1 = f.1 ∧ ((∃ n, EntryOf b' f.1 n ∧ deserialize P I ord f.2 n = .ok q.2) ∨
         ((∀ n, ¬ EntryOf b' f.1 n) ∧ (∃ t, f.2 = .option t) ∧ q.2 = .none))) fs vs' →
      (j, w) ∈ vs → (j, w) ∈ vs' := by
    intro b b' vs vs' j w he hd hc h1 h2 hm
    obtain ⟨f, hf, hj, hv⟩ := h1.right hm
    obtain ⟨⟨j', w'⟩, hm', hj', hv'⟩ := h2.left hf
    simp only at hj hj' hv hv'
    subst hj
    subst hj'
    have : w' = w := by
      rcases hv with ⟨n, hn, hv⟩ | ⟨hn, -, rfl⟩ <;> rcases hv' with ⟨n', hn', hv'⟩ | ⟨hn', -, rfl⟩
      · have := entry_unique hd hc hn ((he n').2 hn')
        subst this
        rw [hv] at hv'
        injection hv' with e; exact e.symm
      · exact absurd ((he n).1 hn) (hn' n)
      · exact absurd ((he n').2 hn') (hn n')
      · rfl
    rwa [this] at hm'
  obtain ⟨hd, hc, -⟩ := (c58_struct P I ord fs hfs _ _).1 h
  obtain ⟨hd', hc', -⟩ := (c58_struct P I ord fs hfs _ _).1 h'
  refine ⟨vs, vs', rfl, rfl, fun j => by rw [k1, k2], fun j w hj => ⟨fun hm => ?_, fun hm => ?_⟩⟩
  · exact one (entry_same p e e' j hj) hd hc h1 h2 hm
  · exact one (entry_same p e' e j hj) hd' hc' h2 h1 hm

/-- C90: the new body can be read as a struct exactly if the entry in which the value is can be read as the field of this name,
or can be skipped if there is no such field. -/
theorem c90_struct_succeeds_iff (fs : List (Str × Ty)) (hfs : (fs.map Prod.fst).Nodup) (p : ValuePlace) (e e' : Expr) (v : DVal)
    (h : deserialize P I ord (.struct fs) (.body (p.fill e)) = .ok v) :
    (∃ v', deserialize P I ord (.struct fs) (.body (p.fill e')) = .ok v') ↔
      ∀ n, EntryOf (p.fill e') p.place.name n →
        (∀ t, (p.place.name, t) ∈ fs → ∃ w, deserialize P I ord t n = .ok w) ∧
        (p.place.name ∉ fs.map Prod.fst → ∃ w, deserialize P I ord .ignored n = .ok w) := by
  obtain ⟨hd, hc, ⟨vs, -, h1⟩, hx⟩ := (c58_struct P I ord fs hfs _ v).1 h
  have hd' := distinct_mono p e e' hd
  have hc' : ¬ NameClash (p.fill e') := fun hn => hc (clash_mono p e' e hn)
  constructor
  · rintro ⟨v', h'⟩ n hn
    obtain ⟨-, -, ⟨vs', -, h2⟩, hx'⟩ := (c58_struct P I ord fs hfs _ v').1 h'
    refine ⟨fun t ht => ?_, fun hk => hx' _ n hn hk⟩
    obtain ⟨q, -, -, hq⟩ := h2.left ht
    rcases hq with ⟨n', hn', hw⟩ | ⟨hno, -⟩
    · rw [entry_unique hd' hc' hn hn']; exact ⟨_, hw⟩
    · exact absurd hn (hno n)
  · intro hw
    have : ∃ vs', AllRel (fun (f : Str × Ty) (q : Str × DVal) => q.1 = f.1 ∧
        ((∃ n, EntryOf (p.fill e') f.1 n ∧ deserialize P I ord f.2 n = .ok q.2) ∨
         ((∀ n, ¬ EntryOf (p.fill e') f.1 n) ∧ (∃ t, f.2 = .option t) ∧ q.2 = .none))) fs vs' := by
      have key : ∀ (gs : List (Str × Ty)) (vs : List (Str × DVal)), (∀ g ∈ gs, g ∈ fs) → AllRel (fun (f : Str × Ty) (q : Str × DVal) => q.1 = f.1 ∧
        ((∃ n, EntryOf (p.fill e) f.1 n ∧ deserialize P I ord f.2 n = .ok q.2) ∨
         ((∀ n, ¬ EntryOf (p.fill e) f.1 n) ∧ (∃ t, f.2 = .option t) ∧ q.2 = .none))) gs vs →
         ∃ vs', AllRel (fun (f : Str × Ty) (q : Str × DVal) => q.1 = f.1 ∧
        ((∃ n, EntryOf (p.fill e') f.1 n ∧ deserialize P I ord f.2 n = .ok q.2) ∨
         ((∀ n, ¬ EntryOf (p.fill e') f.1 n) ∧ (∃ t, f.2 = .option t) ∧ q.2 = .none))) gs vs' := by
        intro gs vs hg hr
        induction hr with
        | nil => exact ⟨[], .nil⟩
        | cons f q gs vs hfq _ ih =>
          obtain ⟨vs', ih⟩ := ih fun g h => hg g (List.mem_cons_of_mem _ h)
          obtain ⟨hq, hfq⟩ := hfq
          by_cases hk : f.1 = p.place.name
          · rcases hfq with ⟨n, hn, -⟩ | ⟨hno, ht, -⟩
            · obtain ⟨n', hn'⟩ := names_mono p e e' ⟨n, hn⟩
              obtain ⟨w, hw⟩ := (hw n' (hk ▸ hn')).1 f.2 (hk ▸ hg f (List.mem_cons_self ..))
              exact ⟨(f.1, w) :: vs', .cons _ _ _ _ ⟨rfl, .inl ⟨n', hn', hw⟩⟩ ih⟩
            · refine ⟨(f.1, .none) :: vs', .cons _ _ _ _ ⟨rfl, .inr ⟨fun n hn => ?_, ht, rfl⟩⟩ ih⟩
              obtain ⟨n', hn'⟩ := names_mono p e' e ⟨n, hn⟩
              exact hno n' hn'
          · refine ⟨q :: vs', .cons _ _ _ _ ⟨hq, ?_⟩ ih⟩
            simpa only [entry_same p e e' f.1 hk] using hfq
      exact key fs vs (fun _ h => h) h1
    obtain ⟨vs', h2⟩ := this
    refine ⟨.entries vs', (c58_struct P I ord fs hfs _ _).2 ⟨hd', hc', ⟨vs', rfl, h2⟩, fun k n hn hk => ?_⟩⟩
    by_cases hkn : k = p.place.name
    · subst hkn; exact (hw n hn).2 hk
    · exact hx k n ((entry_same p e e' k hkn n).2 hn) hk

/-- C90: a change in an entry that the struct does not declare has no effect, unless the new entry cannot be skipped. -/
theorem c90_undeclared (fs : List (Str × Ty)) (hfs : (fs.map Prod.fst).Nodup) (p : ValuePlace) (e e' : Expr) (v v' : DVal)
    (hp : p.place.name ∉ fs.map Prod.fst) (h : deserialize P I ord (.struct fs) (.body (p.fill e)) = .ok v)
    (h' : deserialize P I ord (.struct fs) (.body (p.fill e')) = .ok v') : v' = v := by
  have := c80_only_declared_entries P I ord fs hfs _ (p.fill e') v h ((c58_struct P I ord fs hfs _ v').1 h').1
    ((c58_struct P I ord fs hfs _ v').1 h').2.1 (fun k hk n => entry_same p e e' k (fun h => hp (h ▸ hk)) n)
    ((c58_struct P I ord fs hfs _ v').1 h').2.2.2
  rw [this] at h'
  injection h' with h'
  exact h'.symm

/-- The entry of an attribute is its value. -/
private theorem attribute_entry {before after : Body} {k : CowStr} {e : Expr} {n : Node}
    (hd : Distinct (attrs (before ++ .attribute k e :: after))) (hc : ¬ NameClash (before ++ .attribute k e :: after)) :
    EntryOf (before ++ .attribute k e :: after) k.str n ↔ n = .expr e := by
  have he : EntryOf (before ++ .attribute k e :: after) k.str (.expr e) :=
    .inl ⟨k, e, by rw [(attrs_insert before after k e).1]; simp, rfl, rfl⟩
  exact ⟨fun h => entry_unique hd hc h he, fun h => h ▸ he⟩

/-- C90: the value of an attribute is replaced. The map can be read exactly if the new value can, and then it has the new
value under the name of the attribute and is the same elsewhere. -/
theorem c90_map_attribute (t : Ty) (before after : Body) (k : CowStr) (e e' : Expr) (vs : List (Str × DVal))
    (h : deserialize P I ord (.map t) (.body (before ++ .attribute k e :: after)) = .ok (.entries vs)) :
    ((∃ v', deserialize P I ord (.map t) (.body (before ++ .attribute k e' :: after)) = .ok v') ↔
      ∃ w, deserialize P I ord t (.expr e') = .ok w) ∧
    ∀ w, deserialize P I ord t (.expr e') = .ok w →
      ∃ vs', deserialize P I ord (.map t) (.body (before ++ .attribute k e' :: after)) = .ok (.entries vs') ∧
        (k.str, w) ∈ vs' ∧ AgreeExcept k.str vs vs' := by
  let p : ValuePlace := ⟨before, .attribute k .here, after⟩
  obtain ⟨hd, hc, -⟩ := (c59_map_succeeds_iff P I ord t _).1 ⟨_, h⟩
  have hd' : Distinct (attrs (before ++ .attribute k e' :: after)) := distinct_mono p e e' hd
  have hc' : ¬ NameClash (before ++ .attribute k e' :: after) := fun hn => hc (clash_mono p e' e hn)
  constructor
  · constructor
    · rintro ⟨v', hv'⟩
      exact ((c59_map_succeeds_iff P I ord t _).1 ⟨_, hv'⟩).2.2 _ _ ((attribute_entry hd' hc').2 rfl)
    · rintro ⟨w, hw⟩
      exact (c90_map_succeeds_iff P I ord t p e e' _ h).2 (fun n hn => ⟨w, (attribute_entry hd' hc').1 hn ▸ hw⟩)
  · intro w hw
    obtain ⟨v', hv'⟩ := (c90_map_succeeds_iff P I ord t p e e' _ h).2 (fun n hn => ⟨w, (attribute_entry hd' hc').1 hn ▸ hw⟩)
    obtain ⟨vs1, vs', h1, h2, h3⟩ := c90_map P I ord t p e e' _ _ h hv'
    injection h1 with h1
    subst h1
    subst h2
    refine ⟨vs', hv', ?_, h3⟩
    obtain ⟨vs2, h4, -, h5⟩ := c59_map P I ord t _ _ hv'
    injection h4 with h4
    subst h4
    exact (h5 _ _).2 ⟨_, (attribute_entry hd' hc').2 rfl, hw⟩

/-- A field of a struct: the value under its name, or `None` if there is none and the type is an `Option`. -/
private def FieldIs (Ent : Str → Node → Prop) (f : Str × Ty) (q : Str × DVal) : Prop :=
  q.1 = f.1 ∧ ((∃ n, Ent f.1 n ∧ deserialize P I ord f.2 n = .ok q.2) ∨
    ((∀ n, ¬ Ent f.1 n) ∧ (∃ t, f.2 = .option t) ∧ q.2 = .none))

private theorem allRel_split {α β : Type} {R : α → β → Prop} : ∀ {l r : List α} {x : α} {vs : List β}, AllRel R (l ++ x :: r) vs →
      ∃ a w b, vs = a ++ w :: b ∧ l.length = a.length ∧ R x w ∧ AllRel R l a ∧ AllRel R r b := by
  intro l
  induction l with
  | nil =>
    intro r x vs h
    cases h with
    | cons _ w _ b h h' => exact ⟨[], w, b, rfl, rfl, h, .nil, h'⟩
  | cons y l ih =>
    intro r x vs h
    cases h with
    | cons _ w _ b h h' =>
      obtain ⟨a, w', b', rfl, h1, h2, h3, h4⟩ := ih h'
      exact ⟨w :: a, w', b', rfl, by simp [h1], h2, .cons _ _ _ _ h h3, h4⟩

private theorem allRel_func {α β : Type} {R : α → β → Prop} : ∀ {l : List α}, (∀ x ∈ l, ∀ a b, R x a → R x b → a = b) →
    ∀ {a b : List β}, AllRel R l a → AllRel R l b → a = b := by
  intro l
  induction l with
  | nil => intro _ a b h h'; cases h; cases h'; rfl
  | cons x l ih =>
    intro hR a b h h'
    cases h with
    | cons _ w _ a h1 h2 =>
      cases h' with
      | cons _ w' _ b h3 h4 =>
        rw [hR x (List.mem_cons_self ..) _ _ h1 h3, ih (fun x hx => hR x (List.mem_cons_of_mem _ hx)) h2 h4]

private theorem fields_swap {Ent : Str → Node → Prop} {fs : List (Str × Ty)} (hfs : (fs.map Prod.fst).Nodup) {k : Str} {t : Ty}
    (ht : (k, t) ∈ fs) {e : Expr} (hu : ∀ j n n', Ent j n → Ent j n' → n = n')
    (hk : ∀ n, Ent k n ↔ n = .expr e) {xs : List (Str × DVal)}
    (h : AllRel (FieldIs P I ord Ent) fs xs) :
    ∃ vs ws w, xs = vs ++ (k, w) :: ws ∧ deserialize P I ord t (.expr e) = .ok w ∧
      ∀ (Ent' : Str → Node → Prop) (e' : Expr), (∀ j, j ≠ k → ∀ n, Ent j n ↔ Ent' j n) → (∀ n, Ent' k n ↔ n = .expr e') →
      ∀ ys, AllRel (FieldIs P I ord Ent') fs ys ↔ ∃ w', deserialize P I ord t (.expr e') = .ok w' ∧ ys = vs ++ (k, w') :: ws := by
  obtain ⟨f1, f2, rfl⟩ := List.append_of_mem ht
  obtain ⟨a, ⟨j, w⟩, b, rfl, h1, h2, h3, h4⟩ := allRel_split h
  have key : ∀ {Ent : Str → Node → Prop} {e : Expr}, (∀ n, Ent k n ↔ n = .expr e) → ∀ q, FieldIs P I ord Ent (k, t) q →
      q.1 = k ∧ deserialize P I ord t (.expr e) = .ok q.2 := by
    rintro Ent e hk q ⟨h1, ⟨n, hn, hw⟩ | ⟨hn, -⟩⟩
    · exact ⟨h1, (hk n).1 hn ▸ hw⟩
    · exact absurd ((hk _).2 rfl) (hn _)
  have hj : j = k := (key hk _ h2).1
  have h2 : deserialize P I ord t (.expr e) = .ok w := (key hk _ h2).2
  have hne : ∀ f, f ∈ f1 ∨ f ∈ f2 → f.1 ≠ k := by
    rw [List.map_append, List.map_cons, List.nodup_append, List.nodup_cons] at hfs
    rintro f (hf | hf) e
    · exact hfs.2.2 _ (List.mem_map_of_mem hf) _ (List.mem_cons_self ..) e
    · exact hfs.2.1.1 (List.mem_map.2 ⟨f, hf, e⟩)
  have func : ∀ f q q', FieldIs P I ord Ent f q → FieldIs P I ord Ent f q' → q = q' := by
    rintro f ⟨j, w⟩ ⟨j', w'⟩ ⟨rfl, h⟩ ⟨rfl, h'⟩
    rcases h with ⟨n, hn, h⟩ | ⟨hn, -, rfl⟩ <;> rcases h' with ⟨n', hn', h'⟩ | ⟨hn', -, rfl⟩
    · rw [hu _ _ _ hn hn', h'] at h
      have h : w' = w := by injection h
      rw [h]
    · exact absurd hn (hn' n)
    · exact absurd hn' (hn n')
    · rfl
  refine ⟨a, b, w, by rw [hj], h2, fun Ent' e' hs hk' ys => ?_⟩
  have same : ∀ f, f ∈ f1 ∨ f ∈ f2 → ∀ q, FieldIs P I ord Ent f q ↔ FieldIs P I ord Ent' f q := fun f hf q => by
    unfold FieldIs
    simp only [hs f.1 (hne f hf)]
  refine ⟨fun h => ?_, ?_⟩
  · obtain ⟨a', ⟨j', w'⟩, b', rfl, -, h6, h7, h8⟩ := allRel_split h
    have hj' : j' = k := (key hk' _ h6).1
    refine ⟨w', (key hk' _ h6).2, ?_⟩
    rw [hj', allRel_func (fun x _ a b => func x a b) h3 (h7.imp fun f q hf _ => (same f (.inl hf) q).2),
      allRel_func (fun x _ a b => func x a b) h4 (h8.imp fun f q hf _ => (same f (.inr hf) q).2)]
  · rintro ⟨w', hw', rfl⟩
    exact (allRel_append_iff h1).2 ⟨h3.imp fun f q hf _ => (same f (.inl hf) q).1,
      .cons _ _ _ _ ⟨rfl, .inl ⟨_, (hk' _).2 rfl, hw'⟩⟩ (h4.imp fun f q hf _ => (same f (.inr hf) q).1)⟩

/-- C90: the value of an attribute that the struct declares is replaced: the new struct can be read exactly if the new value can
be read as the type of the field, and then only this field has changed. -/
theorem c90_struct_attribute (fs : List (Str × Ty)) (hfs : (fs.map Prod.fst).Nodup) (before after : Body) (k : CowStr) (t : Ty)
    (ht : (k.str, t) ∈ fs) (e : Expr) (v : DVal)
    (h : deserialize P I ord (.struct fs) (.body (before ++ .attribute k e :: after)) = .ok v) :
    ∃ vs ws w, v = .entries (vs ++ (k.str, w) :: ws) ∧ deserialize P I ord t (.expr e) = .ok w ∧
      ∀ e' v', deserialize P I ord (.struct fs) (.body (before ++ .attribute k e' :: after)) = .ok v' ↔
        ∃ w', deserialize P I ord t (.expr e') = .ok w' ∧ v' = .entries (vs ++ (k.str, w') :: ws) := by
  let p : ValuePlace := ⟨before, .attribute k .here, after⟩
  obtain ⟨hd, hc, ⟨xs, rfl, hx⟩, hi⟩ := (c58_struct P I ord fs hfs _ _).1 h
  obtain ⟨vs, ws, w, rfl, h1, h2⟩ := fields_swap P I ord (Ent := EntryOf (before ++ .attribute k e :: after))
    hfs ht (fun j n n' => entry_unique hd hc) (fun n => attribute_entry hd hc) hx
  refine ⟨vs, ws, w, rfl, h1, fun e' v' => ?_⟩
  have hd' : Distinct (attrs (before ++ .attribute k e' :: after)) := distinct_mono p e e' hd
  have hc' : ¬ NameClash (before ++ .attribute k e' :: after) := fun hn => hc (clash_mono p e' e hn)
  replace h2 := h2 (EntryOf (before ++ .attribute k e' :: after)) e' (entry_same p e e') (fun n => attribute_entry hd' hc')
  rw [c58_struct P I ord fs hfs]
  constructor
  · rintro ⟨-, -, ⟨ys, rfl, hy⟩, -⟩
    obtain ⟨w', hw', rfl⟩ := (h2 ys).1 hy
    exact ⟨w', hw', rfl⟩
  · rintro ⟨w', hw', rfl⟩
    refine ⟨hd', hc', ⟨_, rfl, (h2 _).2 ⟨w', hw', rfl⟩⟩, fun j n hn hj => hi j n ((entry_same p e e' j (fun e => ?_) n).2 hn) hj⟩
    exact hj (e ▸ List.mem_map.2 ⟨_, ht, rfl⟩)

/-- C90: an item of a tuple read as a `Vec` is replaced: the sequence can be read exactly if the new item can, and then it has
the new item at this position and is the same elsewhere. -/
theorem c90_vec_item (t : Ty) (before after : List Expr) (e : Expr) (v : DVal)
    (h : deserialize P I ord (.seq t) (.expr (.tuple (before ++ e :: after))) = .ok v) :
    ∃ vs ws w, v = .seq (vs ++ w :: ws) ∧ vs.length = before.length ∧ deserialize P I ord t (.expr e) = .ok w ∧
      ∀ e' v', deserialize P I ord (.seq t) (.expr (.tuple (before ++ e' :: after))) = .ok v' ↔
        ∃ w', deserialize P I ord t (.expr e') = .ok w' ∧ v' = .seq (vs ++ w' :: ws) := by
  have split : ∀ {l r : List Expr} {x : Expr} {vs : List DVal},
      AllRel (fun e w => deserialize P I ord t (.expr e) = .ok w) (l ++ x :: r) vs →
      ∃ a w b, vs = a ++ w :: b ∧ a.length = l.length ∧ deserialize P I ord t (.expr x) = .ok w ∧
        AllRel (fun e w => deserialize P I ord t (.expr e) = .ok w) l a ∧ AllRel (fun e w => deserialize P I ord t (.expr e) = .ok w) r b := by
    intro l
    induction l with
    | nil =>
      intro r x vs h
      cases h with
      | cons _ w _ b h h' => exact ⟨[], w, b, rfl, rfl, h, .nil, h'⟩
    | cons y l ih =>
      intro r x vs h
      cases h with
      | cons _ w _ b h h' =>
        obtain ⟨a, w', b', rfl, h1, h2, h3, h4⟩ := ih h'
        exact ⟨w :: a, w', b', rfl, by simp [h1], h2, .cons _ _ _ _ h h3, h4⟩
  have func : ∀ {l : List Expr} {a b : List DVal}, AllRel (fun e w => deserialize P I ord t (.expr e) = .ok w) l a →
      AllRel (fun e w => deserialize P I ord t (.expr e) = .ok w) l b → a = b := by
    intro l
    induction l with
    | nil => intro a b h h'; cases h; cases h'; rfl
    | cons x l ih =>
      intro a b h h'
      cases h with
      | cons _ w _ a h1 h2 =>
        cases h' with
        | cons _ w' _ b h3 h4 =>
          rw [h1] at h3
          injection h3 with h3
          rw [h3, ih h2 h4]
  obtain ⟨xs, rfl, hx⟩ := (c49_into_vec P I ord t _ v).1 h
  obtain ⟨a, w, b, rfl, h1, h2, h3, h4⟩ := split hx
  refine ⟨a, b, w, rfl, h1, h2, fun e' v' => ?_⟩
  rw [c49_into_vec]
  constructor
  · rintro ⟨ys, rfl, hy⟩
    obtain ⟨a', w', b', rfl, -, h6, h7, h8⟩ := split hy
    exact ⟨w', h6, by rw [func h3 h7, func h4 h8]⟩
  · rintro ⟨w', hw', rfl⟩
    exact ⟨_, rfl, (allRel_append_iff h1.symm).2 ⟨h3, .cons _ _ _ _ hw' h4⟩⟩

private theorem ident_split {l : List (CowStr × Expr)} {before after : List (ObjKey × Expr)} {k : CowStr} {e : Expr}
    (h : before ++ (.ident k, e) :: after = l.map (fun p : CowStr × Expr => (ObjKey.ident p.1, p.2))) :
    ∃ a b, l = a ++ (k, e) :: b ∧ before = a.map (fun p : CowStr × Expr => (ObjKey.ident p.1, p.2)) ∧
      after = b.map (fun p : CowStr × Expr => (ObjKey.ident p.1, p.2)) := by
  obtain ⟨a, r, rfl, h1, h2⟩ := List.map_eq_append_iff.1 h.symm
  cases r with
  | nil => cases h2
  | cons x b =>
    rw [List.map_cons, List.cons.injEq, Prod.mk.injEq, ObjKey.ident.injEq] at h2
    obtain ⟨⟨h3, h4⟩, h5⟩ := h2
    exact ⟨a, b, by rw [← h3, ← h4], h1.symm, h5.symm⟩

private theorem ident_inj {x y : List (CowStr × Expr)} (h : x.map (fun p : CowStr × Expr => (ObjKey.ident p.1, p.2)) =
    y.map (fun p : CowStr × Expr => (ObjKey.ident p.1, p.2))) : x = y :=
  (List.map_inj_right (fun p q h => by
    obtain ⟨p1, p2⟩ := p; obtain ⟨q1, q2⟩ := q
    simp only [Prod.mk.injEq, ObjKey.ident.injEq] at h
    rw [h.1, h.2])).1 h

private theorem distinct_set {a b : List (CowStr × Expr)} {k : CowStr} {e e' : Expr} (h : Distinct (a ++ (k, e) :: b)) :
    Distinct (a ++ (k, e') :: b) := by
  unfold Distinct at *
  simpa using h

/-- C90: the value of an element of an object read as a map is replaced. -/
theorem c90_object_map (t : Ty) (before after : List (ObjKey × Expr)) (k : CowStr) (e : Expr) (v : DVal)
    (h : deserialize P I ord (.map t) (.expr (.object (before ++ (.ident k, e) :: after))) = .ok v) :
    ∃ vs ws w, v = .entries (vs ++ (k.str, w) :: ws) ∧ vs.length = before.length ∧ deserialize P I ord t (.expr e) = .ok w ∧
      ∀ e' v', deserialize P I ord (.map t) (.expr (.object (before ++ (.ident k, e') :: after))) = .ok v' ↔
        ∃ w', deserialize P I ord t (.expr e') = .ok w' ∧ v' = .entries (vs ++ (k.str, w') :: ws) := by
  obtain ⟨l, xs, ho, hl, rfl, hx⟩ := (c59_map_from_object P I ord t _ v).1 h
  obtain ⟨a, b, rfl, rfl, rfl⟩ := ident_split ho
  have split : ∀ {l r : List (CowStr × Expr)} {x : CowStr × Expr} {vs : List (Str × DVal)},
      AllRel (fun p q => q.1 = p.1.str ∧ deserialize P I ord t (.expr p.2) = .ok q.2) (l ++ x :: r) vs →
      ∃ a w b, vs = a ++ (x.1.str, w) :: b ∧ l.length = a.length ∧ deserialize P I ord t (.expr x.2) = .ok w ∧
        AllRel (fun p q => q.1 = p.1.str ∧ deserialize P I ord t (.expr p.2) = .ok q.2) l a ∧
        AllRel (fun p q => q.1 = p.1.str ∧ deserialize P I ord t (.expr p.2) = .ok q.2) r b := by
    intro l
    induction l with
    | nil =>
      intro r x vs h
      cases h with
      | cons _ w _ b h h' =>
        obtain ⟨j, w⟩ := w
        obtain ⟨rfl, h⟩ := h
        exact ⟨[], w, b, rfl, rfl, h, .nil, h'⟩
    | cons y l ih =>
      intro r x vs h
      cases h with
      | cons _ w _ b h h' =>
        obtain ⟨a, w', b', rfl, h1, h2, h3, h4⟩ := ih h'
        exact ⟨w :: a, w', b', rfl, by simp [h1], h2, .cons _ _ _ _ h h3, h4⟩
  have func : ∀ {l : List (CowStr × Expr)} {a b : List (Str × DVal)},
      AllRel (fun p q => q.1 = p.1.str ∧ deserialize P I ord t (.expr p.2) = .ok q.2) l a →
      AllRel (fun p q => q.1 = p.1.str ∧ deserialize P I ord t (.expr p.2) = .ok q.2) l b → a = b := by
    intro l
    induction l with
    | nil => intro a b h h'; cases h; cases h'; rfl
    | cons x l ih =>
      intro a b h h'
      cases h with
      | cons _ w _ a h1 h2 =>
        cases h' with
        | cons _ w' _ b h3 h4 =>
          obtain ⟨j, w⟩ := w
          obtain ⟨j', w'⟩ := w'
          obtain ⟨rfl, h1⟩ := h1
          obtain ⟨rfl, h3⟩ := h3
          simp only at h1 h3
          rw [h1] at h3
          injection h3 with h3
          rw [h3, ih h2 h4]
  obtain ⟨xa, w, xb, rfl, h1, h2, h3, h4⟩ := split hx
  refine ⟨xa, xb, w, rfl, by simp [h1], h2, fun e' v' => ?_⟩
  rw [c59_map_from_object]
  constructor
  · rintro ⟨l', ys, ho', -, rfl, hy⟩
    obtain ⟨a', b', rfl, e1, e2⟩ := ident_split ho'
    obtain rfl := ident_inj e1
    obtain rfl := ident_inj e2
    obtain ⟨ya, w', yb, rfl, -, h6, h7, h8⟩ := split hy
    exact ⟨w', h6, by rw [func h3 h7, func h4 h8]⟩
  · rintro ⟨w', hw', rfl⟩
    exact ⟨a ++ (k, e') :: b, _, by simp, distinct_set hl, rfl, (allRel_append_iff h1).2 ⟨h3, .cons _ _ _ _ ⟨rfl, hw'⟩ h4⟩⟩

/-- C90: the value of an element of an object read as a struct that declares it is replaced. -/
theorem c90_object_struct (fs : List (Str × Ty)) (hfs : (fs.map Prod.fst).Nodup) (before after : List (ObjKey × Expr)) (k : CowStr)
    (t : Ty) (ht : (k.str, t) ∈ fs) (e : Expr) (v : DVal)
    (h : deserialize P I ord (.struct fs) (.expr (.object (before ++ (.ident k, e) :: after))) = .ok v) :
    ∃ vs ws w, v = .entries (vs ++ (k.str, w) :: ws) ∧ deserialize P I ord t (.expr e) = .ok w ∧
      ∀ e' v', deserialize P I ord (.struct fs) (.expr (.object (before ++ (.ident k, e') :: after))) = .ok v' ↔
        ∃ w', deserialize P I ord t (.expr e') = .ok w' ∧ v' = .entries (vs ++ (k.str, w') :: ws) := by
  obtain ⟨l, ho, hl, ⟨xs, rfl, hx⟩, hi⟩ := (c58_struct_from_object P I ord fs hfs _ v).1 h
  obtain ⟨a, b, rfl, rfl, rfl⟩ := ident_split ho
  let Ent : List (CowStr × Expr) → Str → Node → Prop := fun l j n => ∃ p ∈ l, p.1.str = j ∧ n = .expr p.2
  have conv : ∀ (l : List (CowStr × Expr)) (f : Str × Ty) (q : Str × DVal), (q.1 = f.1 ∧
        ((∃ p ∈ l, p.1.str = f.1 ∧ deserialize P I ord f.2 (.expr p.2) = .ok q.2) ∨
         ((∀ p ∈ l, p.1.str ≠ f.1) ∧ (∃ t, f.2 = .option t) ∧ q.2 = .none))) ↔ FieldIs P I ord (Ent l) f q := by
    intro l f q
    constructor
    · rintro ⟨h1, ⟨p, hp, h2, h3⟩ | ⟨h2, h3⟩⟩
      · exact ⟨h1, .inl ⟨_, ⟨p, hp, h2, rfl⟩, h3⟩⟩
      · exact ⟨h1, .inr ⟨fun n ⟨p, hp, h4, _⟩ => h2 p hp h4, h3⟩⟩
    · rintro ⟨h1, ⟨n, ⟨p, hp, h2, rfl⟩, h3⟩ | ⟨h2, h3⟩⟩
      · exact ⟨h1, .inl ⟨p, hp, h2, h3⟩⟩
      · exact ⟨h1, .inr ⟨fun p hp h4 => h2 _ ⟨p, hp, h4, rfl⟩, h3⟩⟩
  have hu : ∀ {l : List (CowStr × Expr)}, Distinct l → ∀ j n n', Ent l j n → Ent l j n' → n = n' := by
    rintro l hl j n n' ⟨p, hp, h1, rfl⟩ ⟨q, hq, h2, rfl⟩
    rw [distinct_eq hl p hp q hq (h1.trans h2.symm)]
  have hk : ∀ {e : Expr}, Distinct (a ++ (k, e) :: b) → ∀ n, Ent (a ++ (k, e) :: b) k.str n ↔ n = .expr e := by
    intro e hl n
    have he : Ent (a ++ (k, e) :: b) k.str (.expr e) := ⟨(k, e), by simp, rfl, rfl⟩
    exact ⟨fun h => hu hl _ _ _ h he, fun h => h ▸ he⟩
  have hs : ∀ {e e' : Expr} j, j ≠ k.str → ∀ n, Ent (a ++ (k, e) :: b) j n → Ent (a ++ (k, e') :: b) j n := by
    rintro e e' j hj n ⟨p, hp, h1, h2⟩
    refine ⟨p, ?_, h1, h2⟩
    rcases List.mem_append.1 hp with hp | hp
    · simp [hp]
    · rcases List.mem_cons.1 hp with rfl | hp
      · exact absurd h1.symm hj
      · simp [hp]
  obtain ⟨vs, ws, w, rfl, h1, h2⟩ := fields_swap P I ord (Ent := Ent (a ++ (k, e) :: b)) hfs ht
    (hu hl) (hk hl) (hx.imp fun f q _ _ => (conv _ f q).1)
  refine ⟨vs, ws, w, rfl, h1, fun e' v' => ?_⟩
  have hl' : Distinct (a ++ (k, e') :: b) := distinct_set hl
  replace h2 := h2 (Ent (a ++ (k, e') :: b)) e' (fun j hj n => ⟨hs j hj n, hs j hj n⟩) (hk hl')
  rw [c58_struct_from_object P I ord fs hfs]
  constructor
  · rintro ⟨l', ho', -, ⟨ys, rfl, hy⟩, -⟩
    obtain ⟨a', b', rfl, e1, e2⟩ := ident_split ho'
    obtain rfl := ident_inj e1
    obtain rfl := ident_inj e2
    obtain ⟨w', hw', rfl⟩ := (h2 ys).1 (hy.imp fun f q _ _ => (conv _ f q).1)
    exact ⟨w', hw', rfl⟩
  · rintro ⟨w', hw', rfl⟩
    refine ⟨a ++ (k, e') :: b, by simp, hl', ⟨_, rfl, ((h2 _).2 ⟨w', hw', rfl⟩).imp fun f q _ _ => (conv _ f q).2⟩, ?_⟩
    intro p hp hn
    rcases List.mem_append.1 hp with hp | hp
    · exact hi p (by simp [hp]) hn
    · rcases List.mem_cons.1 hp with rfl | hp
      · exact absurd (List.mem_map.2 ⟨_, ht, rfl⟩) hn
      · exact hi p (by simp [hp]) hn

/-! ## at any depth -/

private theorem deep_deserialize {t : Ty} (ht : ProperTy t) {N : Expr → Node} {e : Expr} {v : DVal}
    (hd : ∀ v, Reads P I t (N e) v → Deep P I (fun y v => Reads P I t (N y) v) e v) (h : deserialize P I ord t (N e) = .ok v) :
    (∀ e', ∃ v', deserialize P I ord t (N e') = .ok v' ∧ SameVal v v') ∨
    ∃ (t' : Ty) (c : ReadPlace) (w : DVal), deserialize P I ord t' (.expr e) = .ok w ∧ SameVal (c.fill w) v ∧
      ∀ e', ((∃ v', deserialize P I ord t (N e') = .ok v') ↔ ∃ w', deserialize P I ord t' (.expr e') = .ok w') ∧
        ∀ v' w', deserialize P I ord t (N e') = .ok v' → deserialize P I ord t' (.expr e') = .ok w' → SameVal (c.fill w') v' := by
  have hr := c68_deserialized_is_read P I ord t ht _ v h
  obtain ⟨c, r, hp, ⟨w, hw, hv⟩, hc⟩ := hd v hr
  cases r with
  | none =>
    left
    intro e'
    rw [hv, show c.fill w = c.fill .unit by rw [show w = .unit from hw]]
    exact c68_read_is_deserialized P I ord t ht _ _ ((hc e').1 .unit rfl)
  | some t' =>
    right
    have hp := hp t' rfl
    have key : ∀ e' v' w', deserialize P I ord t (N e') = .ok v' → deserialize P I ord t' (.expr e') = .ok w' → SameVal (c.fill w') v' := by
      intro e' v' w' h1 h2
      obtain ⟨v'', h3, h4⟩ := c68_read_is_deserialized P I ord t ht _ _ ((hc e').1 w' (c68_deserialized_is_read P I ord t' hp _ w' h2))
      rw [h1] at h3
      cases h3
      exact h4
    obtain ⟨w', h1, -⟩ := c68_read_is_deserialized P I ord t' hp _ w hw
    refine ⟨t', c, w', h1, key e v w' h h1, fun e' => ⟨⟨?_, ?_⟩, key e'⟩⟩
    · rintro ⟨v', hv'⟩
      obtain ⟨w', hw'⟩ := (hc e').2 ⟨v', c68_deserialized_is_read P I ord t ht _ v' hv'⟩
      obtain ⟨w'', h2, -⟩ := c68_read_is_deserialized P I ord t' hp _ w' hw'
      exact ⟨w'', h2⟩
    · rintro ⟨w', hw'⟩
      obtain ⟨v', h2, -⟩ := c68_read_is_deserialized P I ord t ht _ _ ((hc e').1 w' (c68_deserialized_is_read P I ord t' hp _ w' hw'))
      exact ⟨v', h2⟩

/-- C90, at any depth and for every type: if a body can be read, then a value anywhere in it is either not looked at, and can be
replaced by anything with the same result; or there are one type as which it is read, and one place in the result at which it is
found, such that the body with another value there can be read exactly if the value can be read as this type, and the result is
then the same except for that place (all up to the order of the entries of maps). -/
theorem c90_anywhere (t : Ty) (ht : ProperTy t) (p : ValuePlace) (e : Expr) (v : DVal)
    (h : deserialize P I ord t (.body (p.fill e)) = .ok v) :
    (∀ e', ∃ v', deserialize P I ord t (.body (p.fill e')) = .ok v' ∧ SameVal v v') ∨
    ∃ (t' : Ty) (c : ReadPlace) (w : DVal), deserialize P I ord t' (.expr e) = .ok w ∧ SameVal (c.fill w) v ∧
      ∀ e', ((∃ v', deserialize P I ord t (.body (p.fill e')) = .ok v') ↔ ∃ w', deserialize P I ord t' (.expr e') = .ok w') ∧
        ∀ v' w', deserialize P I ord t (.body (p.fill e')) = .ok v' → deserialize P I ord t' (.expr e') = .ok w' →
          SameVal (c.fill w') v' :=
  deep_deserialize P I ord ht (N := fun y => .body (p.fill y)) (fun v h => deep_body e p.place p.before p.after t v ht h) h

/-- C90: the same for a value in an expression. -/
theorem c90_anywhere_in_expression (t : Ty) (ht : ProperTy t) (p : ExprPlace) (e : Expr) (v : DVal)
    (h : deserialize P I ord t (.expr (p.fill e)) = .ok v) :
    (∀ e', ∃ v', deserialize P I ord t (.expr (p.fill e')) = .ok v' ∧ SameVal v v') ∨
    ∃ (t' : Ty) (c : ReadPlace) (w : DVal), deserialize P I ord t' (.expr e) = .ok w ∧ SameVal (c.fill w) v ∧
      ∀ e', ((∃ v', deserialize P I ord t (.expr (p.fill e')) = .ok v') ↔ ∃ w', deserialize P I ord t' (.expr e') = .ok w') ∧
        ∀ v' w', deserialize P I ord t (.expr (p.fill e')) = .ok v' → deserialize P I ord t' (.expr e') = .ok w' →
          SameVal (c.fill w') v' :=
  deep_deserialize P I ord ht (N := fun y => .expr (p.fill y)) (fun v h => deep_expr e p t v ht h) h

/-! ## the same for texts -/

/-- C90: a value anywhere in a document is rewritten in place, and the document is read as any type. -/
theorem c90_text_anywhere (t : Ty) (ht : ProperTy t) (p : ValuePlace) (e : Expr) (s : Str) (v : DVal) (h : parseStr U s = .ok (p.fill e))
    (hv : deFromStr U P I ord t s = .ok v) :
    ∃ pre x post, s = pre ++ x ++ post ∧ WrittenBefore U x e post ∧
      ((∀ x' e', WrittenBefore U x' e' post → ∃ v', deFromStr U P I ord t (pre ++ x' ++ post) = .ok v' ∧ SameVal v v') ∨
      ∃ (t' : Ty) (c : ReadPlace) (w : DVal), deserialize P I ord t' (.expr e) = .ok w ∧ SameVal (c.fill w) v ∧
        ∀ x' e', WrittenBefore U x' e' post →
          ((∃ v', deFromStr U P I ord t (pre ++ x' ++ post) = .ok v') ↔ ∃ w', deserialize P I ord t' (.expr e') = .ok w') ∧
          ∀ v' w', deFromStr U P I ord t (pre ++ x' ++ post) = .ok v' → deserialize P I ord t' (.expr e') = .ok w' →
            SameVal (c.fill w') v') := by
  obtain ⟨pre, x, post, h1, h2, h3⟩ := c89_value_in_place U p e s h
  have hd : ∀ x' e', WrittenBefore U x' e' post → deFromStr U P I ord t (pre ++ x' ++ post) = deserialize P I ord t (.body (p.fill e')) := by
    intro x' e' h'
    unfold deFromStr
    rw [h3 x' e' h']
  rw [h1, hd x e h2] at hv
  refine ⟨pre, x, post, h1, h2, ?_⟩
  rcases c90_anywhere P I ord t ht p e v hv with h4 | ⟨t', c, w, h4, h5, h6⟩
  · left
    intro x' e' h'
    rw [hd x' e' h']
    exact h4 e'
  · right
    refine ⟨t', c, w, h4, h5, fun x' e' h' => ?_⟩
    rw [hd x' e' h']
    exact h6 e'


/-- C90: a value in a document is rewritten in place. If both documents can be read as maps, the maps have the same names, and
the same values under all names but that of the attribute or of the outermost block in which the value is. -/
theorem c90_text_map (t : Ty) (p : ValuePlace) (e : Expr) (s : Str) (v : DVal) (h : parseStr U s = .ok (p.fill e))
    (hv : deFromStr U P I ord (.map t) s = .ok v) :
    ∃ pre x post, s = pre ++ x ++ post ∧ WrittenBefore U x e post ∧
      ∀ x' e', WrittenBefore U x' e' post → ∀ v', deFromStr U P I ord (.map t) (pre ++ x' ++ post) = .ok v' →
        ∃ vs vs', v = .entries vs ∧ v' = .entries vs' ∧ AgreeExcept p.place.name vs vs' := by
  obtain ⟨pre, x, post, h1, h2, h3⟩ := c89_value_in_place U p e s h
  refine ⟨pre, x, post, h1, h2, fun x' e' h' v' hv' => ?_⟩
  unfold deFromStr at hv hv'
  rw [h] at hv
  rw [h3 x' e' h'] at hv'
  exact c90_map P I ord t p e e' v v' hv hv'

/-- C90: the same for structs. -/
theorem c90_text_struct (fs : List (Str × Ty)) (hfs : (fs.map Prod.fst).Nodup) (p : ValuePlace) (e : Expr) (s : Str) (v : DVal)
    (h : parseStr U s = .ok (p.fill e)) (hv : deFromStr U P I ord (.struct fs) s = .ok v) :
    ∃ pre x post, s = pre ++ x ++ post ∧ WrittenBefore U x e post ∧
      ∀ x' e', WrittenBefore U x' e' post → ∀ v', deFromStr U P I ord (.struct fs) (pre ++ x' ++ post) = .ok v' →
        (p.place.name ∉ fs.map Prod.fst → v' = v) ∧
        ∃ vs vs', v = .entries vs ∧ v' = .entries vs' ∧ AgreeExcept p.place.name vs vs' := by
  obtain ⟨pre, x, post, h1, h2, h3⟩ := c89_value_in_place U p e s h
  refine ⟨pre, x, post, h1, h2, fun x' e' h' v' hv' => ?_⟩
  unfold deFromStr at hv hv'
  rw [h] at hv
  rw [h3 x' e' h'] at hv'
  exact ⟨fun hp => c90_undeclared P I ord fs hfs p e e' v v' hp hv hv', c90_struct P I ord fs hfs p e e' v v' hv hv'⟩

/-- C90: the value of a top-level attribute that a struct declares is rewritten in place, by any text of a value: the new
document can be read as the struct exactly if the new value can be read as the type of the field, and then only this field has
changed. -/
theorem c90_text_struct_attribute (fs : List (Str × Ty)) (hfs : (fs.map Prod.fst).Nodup) (before after : Body) (k : CowStr) (t : Ty)
    (ht : (k.str, t) ∈ fs) (e : Expr) (s : Str) (v : DVal) (h : parseStr U s = .ok (before ++ .attribute k e :: after))
    (hv : deFromStr U P I ord (.struct fs) s = .ok v) :
    ∃ pre x post vs w ws, s = pre ++ x ++ post ∧ WrittenBefore U x e post ∧ v = .entries (vs ++ (k.str, w) :: ws) ∧
      deserialize P I ord t (.expr e) = .ok w ∧
      ∀ x' e', WrittenBefore U x' e' post → ∀ v', deFromStr U P I ord (.struct fs) (pre ++ x' ++ post) = .ok v' ↔
        ∃ w', deserialize P I ord t (.expr e') = .ok w' ∧ v' = .entries (vs ++ (k.str, w') :: ws) := by
  obtain ⟨pre, x, post, h1, h2, h3⟩ := c89_value_in_place U ⟨before, .attribute k .here, after⟩ e s h
  have hv1 : deserialize P I ord (.struct fs) (.body (before ++ .attribute k e :: after)) = .ok v := by
    unfold deFromStr at hv
    rwa [h] at hv
  obtain ⟨vs, ws, w, rfl, h5, h6⟩ := c90_struct_attribute P I ord fs hfs before after k t ht e v hv1
  refine ⟨pre, x, post, vs, w, ws, h1, h2, rfl, h5, fun x' e' h' v' => ?_⟩
  unfold deFromStr
  rw [h3 x' e' h']
  exact h6 e' v'

/-- Sample: `r = false` inside a block is changed to `r = true`; the struct declares `a` and the block `b`. -/
def readBefore : Str := "a = null\nb {\n r = false\n}\n".toList
def readAfter : Str := "a = null\nb {\n r = true\n}\n".toList
def readPlace : ValuePlace :=
  ⟨[.attribute (.borrowed ['a']) .null], .block (.borrowed ['b']) [] [] (.attribute (.borrowed ['r']) .here) [], []⟩

/-- Non-vacuity of C90: both documents are read, and the values differ under `b` and not under `a`. -/
example : parseStr asciiClass readBefore = .ok (readPlace.fill (.boolean false)) ∧
    parseStr asciiClass readAfter = .ok (readPlace.fill (.boolean true)) := by
  exact ⟨by decide +kernel, by decide +kernel⟩

example (b : Bool) : deserialize P I ⟨id, fun _ => .refl _⟩ (.struct [(['b'], .map .bool), (['a'], .unit)]) (.body (readPlace.fill (.boolean b))) =
      .ok (.entries [(['b'], .entries [(['r'], .bool b)]), (['a'], .unit)]) := by
  rfl

end
end Verif.Props
