import Verif.Props.Schema
/-!
# Objects read as maps and as structs: C58, C59
-/
set_option autoImplicit false

namespace Verif.Props
open Verif Spec

variable (P : F64Parse) (I : F64OfInt) (ord : HashOrder)

private theorem object_drained {o : List (ObjKey × Expr)} {es : List (CowStr × Node)} (h : Drains (.object (.new o)) es .done) :
    ∃ l, o = identObject l ∧ Distinct l ∧ es = l.map fun p => (p.1, .expr p.2) := by
  rcases c46_complete o with ⟨l, rfl, hl⟩ | ⟨pre, k, e, post, rfl, hp, hk⟩ | ⟨pre, k, e, post, rfl, hp⟩
  · exact ⟨l, rfl, hl, (drains_functional h (c46_entries l hl)).1⟩
  · cases (drains_functional h (c46_duplicate pre k e post hp hk)).2
  · cases (drains_functional h (c46_expression_key pre k e post hp)).2

private theorem allRel_map {α β γ : Type} {f : α → β} {R : β → γ → Prop} : ∀ {l : List α} {r : List γ},
    AllRel R (l.map f) r ↔ AllRel (fun a c => R (f a) c) l r := by
  intro l
  induction l with
  | nil =>
    intro r
    constructor
    · intro h; cases h; exact .nil
    · intro h; cases h; exact .nil
  | cons a l ih =>
    intro r
    constructor
    · intro h
      rw [List.map_cons] at h
      cases h with
      | cons _ _ _ _ h h' => exact .cons _ _ _ _ h (ih.1 h')
    · intro h
      cases h with
      | cons _ _ _ _ h h' => exact .cons _ _ _ _ h (ih.2 h')

/-- C59: an object into `HashMap<String, T>`: it succeeds iff all keys are identifiers, no two are the same, and every value can
be read as `T`; the map has exactly these entries. -/
theorem c59_map_from_object (t : Ty) (o : List (ObjKey × Expr)) (v : DVal) :
    deserialize P I ord (.map t) (.expr (.object o)) = .ok v ↔
      ∃ l vs, o = l.map (fun p : CowStr × Expr => (.ident p.1, p.2)) ∧ Distinct l ∧ v = .entries vs ∧
        AllRel (fun p q => q.1 = p.1.str ∧ deserialize P I ord t (.expr p.2) = .ok q.2) l vs := by
  rw [deserialize_eq]
  obtain ⟨es, s, hD, -⟩ := drains_exists (.object (.new o))
  show ((entryLoop (fun _ => deserialize P I ord t) _ _).map DVal.entries = _) ↔ _
  rw [map_ok]
  constructor
  · rintro ⟨vs, h, rfl⟩
    obtain ⟨rfl, h⟩ := (entryLoop_ok hD).1 h
    obtain ⟨l, rfl, hl, rfl⟩ := object_drained hD
    exact ⟨l, vs, rfl, hl, rfl, allRel_map.1 h⟩
  · rintro ⟨l, vs, rfl, hl, rfl, h⟩
    obtain ⟨rfl, rfl⟩ := drains_functional hD (c46_entries l hl)
    exact ⟨vs, (entryLoop_ok hD).2 ⟨rfl, allRel_map.2 h⟩, rfl⟩

private theorem object_struct_ok {fs : List (Str × Ty)} {o : List (ObjKey × Expr)} {v : DVal} :
    deserialize P I ord (.struct fs) (.expr (.object o)) = .ok v ↔
      ∃ l found vs, o = identObject l ∧ Distinct l ∧ v = .entries vs ∧
        AllRel (fun p q => q.1 = p.1.str ∧ deserialize P I ord ((field? p.1.str fs).getD .ignored) (.expr p.2) = .ok q.2) l found ∧
        structFields found fs = .ok vs := by
  rw [deserialize_eq]
  obtain ⟨es, s, hD, -⟩ := drains_exists (.object (.new o))
  show ((entryLoop (fun k => deserialize P I ord ((field? k fs).getD .ignored)) _ _).bind
    (fun es => (structFields es fs).map DVal.entries) = _) ↔ _
  simp only [bind_ok, map_ok]
  constructor
  · rintro ⟨found, h, vs, h2, rfl⟩
    obtain ⟨rfl, h⟩ := (entryLoop_ok hD).1 h
    obtain ⟨l, rfl, hl, rfl⟩ := object_drained hD
    exact ⟨l, found, vs, rfl, hl, rfl, allRel_map.1 h, h2⟩
  · rintro ⟨l, found, vs, rfl, hl, rfl, h, h2⟩
    obtain ⟨rfl, rfl⟩ := drains_functional hD (c46_entries l hl)
    exact ⟨found, (entryLoop_ok hD).2 ⟨rfl, allRel_map.2 h⟩, vs, h2, rfl⟩

theorem distinct_eq {l : List (CowStr × Expr)} (h : Distinct l) : ∀ p ∈ l, ∀ q ∈ l, p.1.str = q.1.str → p = q := by
  unfold Distinct at h
  induction l with
  | nil => intro p hp; cases hp
  | cons a l ih =>
    rw [List.map_cons, List.nodup_cons] at h
    intro p hp q hq e
    rcases List.mem_cons.1 hp with rfl | hp' <;> rcases List.mem_cons.1 hq with rfl | hq'
    · rfl
    · exact (h.1 (List.mem_map.2 ⟨q, hq', e.symm⟩)).elim
    · exact (h.1 (List.mem_map.2 ⟨p, hp', e⟩)).elim
    · exact ih h.2 p hp' q hq' e

/-- C58: an object into a derived struct. It succeeds iff all keys are identifiers, no two are the same, every declared field
that the object has gets the value under its name, every other declared field is an `Option` (and becomes `None`), and what is
not declared can be skipped. -/
theorem c58_struct_from_object (fs : List (Str × Ty)) (hfs : (fs.map Prod.fst).Nodup) (o : List (ObjKey × Expr)) (v : DVal) :
    deserialize P I ord (.struct fs) (.expr (.object o)) = .ok v ↔
      ∃ l, o = l.map (fun p : CowStr × Expr => (.ident p.1, p.2)) ∧ Distinct l ∧
      (∃ vs, v = .entries vs ∧ AllRel (fun f q => q.1 = f.1 ∧
        ((∃ p ∈ l, p.1.str = f.1 ∧ deserialize P I ord f.2 (.expr p.2) = .ok q.2) ∨
         ((∀ p ∈ l, p.1.str ≠ f.1) ∧ (∃ t, f.2 = .option t) ∧ q.2 = .none))) fs vs) ∧
      ∀ p ∈ l, p.1.str ∉ fs.map Prod.fst → ∃ w, deserialize P I ord .ignored (.expr p.2) = .ok w := by
  rw [object_struct_ok]
  have names : ∀ {R : CowStr × Expr → Str × DVal → Prop} (_ : ∀ p q, R p q → q.1 = p.1.str) {l : List (CowStr × Expr)}
      {vs : List (Str × DVal)}, AllRel R l vs → vs.map Prod.fst = l.map fun p => p.1.str := by
    intro R hR l vs h
    induction h with
    | nil => rfl
    | cons p q l vs h _ ih => simp [ih, hR p q h]
  constructor
  · rintro ⟨l, found, vs, rfl, hl, rfl, h1, h2⟩
    have hkeys := names (fun p q h => h.1) h1
    refine ⟨l, rfl, hl, ⟨vs, rfl, (structFields_ok.1 h2).imp fun f q hf _ ⟨hq1, hq2⟩ => ⟨hq1, ?_⟩⟩, fun p hp hkn => ?_⟩
    · rcases hq2 with hq2 | ⟨hq2, ht, hv⟩
      · have hm := field?_mem hq2
        obtain ⟨p, hp, h3, h4⟩ := h1.right hm
        dsimp only at h3 h4
        have : field? p.1.str fs = some f.2 := by rw [← h3]; exact field?_of_mem hf hfs
        rw [this] at h4
        exact .inl ⟨p, hp, h3.symm, h4⟩
      · refine .inr ⟨fun p hp h3 => ?_, ht, hv⟩
        have := field?_none.1 hq2
        rw [hkeys] at this
        exact this (List.mem_map.2 ⟨p, hp, h3⟩)
    · obtain ⟨q, -, -, h4⟩ := h1.left hp
      rw [field?_none.2 hkn] at h4
      exact ⟨q.2, h4⟩
  · rintro ⟨l, rfl, hl, ⟨vs, rfl, h1⟩, h2⟩
    obtain ⟨found, hfound⟩ := AllRel.exists_of (as := l)
      (R := fun (p : CowStr × Expr) (q : Str × DVal) => q.1 = p.1.str ∧
        deserialize P I ord ((field? p.1.str fs).getD .ignored) (.expr p.2) = .ok q.2) (by
        intro p hp
        cases hf : field? p.1.str fs with
        | none =>
          obtain ⟨w, hw⟩ := h2 p hp (field?_none.1 hf)
          exact ⟨(p.1.str, w), rfl, hw⟩
        | some t =>
          obtain ⟨q, -, -, h3⟩ := h1.left (field?_mem hf)
          rcases h3 with ⟨p', hp', h4, hq⟩ | ⟨hno, -⟩
          · have := distinct_eq hl p hp p' hp' h4.symm
            subst this
            exact ⟨(p.1.str, q.2), rfl, hq⟩
          · exact absurd rfl (hno p hp))
    have hkeys := names (fun p q h => h.1) hfound
    have hfn : (found.map Prod.fst).Nodup := by rw [hkeys]; exact hl
    refine ⟨l, found, vs, rfl, hl, rfl, hfound, structFields_ok.2 (h1.imp fun f q hf _ ⟨hq1, hq2⟩ => ⟨hq1, ?_⟩)⟩
    rcases hq2 with ⟨p, hp, h4, hq⟩ | ⟨hno, ht, hv⟩
    · obtain ⟨r, hr, h5, h6⟩ := hfound.left hp
      rw [h4, field?_of_mem hf hfs] at h6
      have : r.2 = q.2 := by
        have h7 := h6.symm.trans hq
        injection h7
      left
      rw [← this, ← h4, ← h5]
      exact field?_of_mem hr hfn
    · right
      refine ⟨field?_none.2 fun hm => ?_, ht, hv⟩
      rw [hkeys] at hm
      obtain ⟨p, hp, h4⟩ := List.mem_map.1 hm
      exact hno p hp h4

end Verif.Props
