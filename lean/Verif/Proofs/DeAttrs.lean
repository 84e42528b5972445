import Verif.Spec.Attrs
import Verif.Proofs.DeKeys
import Verif.Proofs.DeStruct
/-! # Structs with serde attributes -/
set_option autoImplicit false

namespace Verif
open Spec

/-- processing the entries in order -/
def runAttrs (S : StructSpec) (ignore : Node → Res DeErr DVal) :
    List (CowStr × Node) → Stop → List (Str × DVal) → Res DeErr (List (Str × DVal))
  | [], .done, found => .ok found
  | [], .error e, _ => .error e
  | [], .panicked, _ => .panic
  | (k, n) :: es, s, found =>
    match fieldFor k.str S.fields with
    | some f =>
      if (field? f.name found).isSome then .error .custom
      else (f.read n).bind fun v => runAttrs S ignore es s (found ++ [(f.name, v)])
    | none => if S.deny then .error .custom else (ignore n).bind fun _ => runAttrs S ignore es s found

theorem attrLoop_eq {S : StructSpec} {ignore : Node → Res DeErr DVal} {a : MapAcc} {es : List (CowStr × Node)} {s : Stop}
    (h : Drains a es s) : ∀ {fuel : Nat} {found : List (Str × DVal)}, a.remaining < fuel →
      attrLoop S ignore fuel a found = runAttrs S ignore es s found := by
  induction h with
  | done a a' h1 =>
    intro fuel found hf
    cases fuel with
    | zero => omega
    | succ fuel => simp [attrLoop, Props.c52_key_seed a S.identify, h1, Res.bind, runAttrs]
  | keyError a a' e h1 =>
    intro fuel found hf
    cases fuel with
    | zero => omega
    | succ fuel => simp [attrLoop, Props.c52_key_seed a S.identify, h1, Res.bind, runAttrs]
  | keyPanic a a' h1 =>
    intro fuel found hf
    cases fuel with
    | zero => omega
    | succ fuel => simp [attrLoop, Props.c52_key_seed a S.identify, h1, Res.bind, runAttrs]
  | valueError a a' a'' k e h1 h2 => obtain ⟨⟨n, h⟩, -⟩ := value_after_key h1 h2; cases h
  | valuePanic a a' a'' k h1 h2 => obtain ⟨⟨n, h⟩, -⟩ := value_after_key h1 h2; cases h
  | entry a a' a'' k n es s h1 h2 h3 ih =>
    intro fuel found hf
    have hr := (value_after_key h1 h2).2
    cases fuel with
    | zero => omega
    | succ fuel =>
      have hrem : a''.remaining < fuel := by omega
      simp only [attrLoop, Props.c52_key_seed a S.identify, h1, runAttrs, Res.bind, Res.map, nextValue_seed, h2, StructSpec.identify]
      cases fieldFor k.str S.fields with
      | none =>
        simp only
        cases S.deny with
        | true => rfl
        | false =>
          simp only [Bool.false_eq_true, if_false]
          cases ignore n <;> simp [ih hrem]
      | some f =>
        simp only
        split
        · rfl
        · cases f.read n <;> simp [ih hrem]

/-! ## the names -/

theorem fieldFor_some {k : Str} {f : FieldSpec} : ∀ {fs : List FieldSpec}, fieldFor k fs = some f → f ∈ fs ∧ k ∈ f.names
  | [], h => by cases h
  | g :: fs, h => by
    simp only [fieldFor] at h
    split at h
    · cases h; exact ⟨List.mem_cons_self .., ‹_›⟩
    · exact ⟨List.mem_cons_of_mem _ (fieldFor_some h).1, (fieldFor_some h).2⟩

theorem fieldFor_none {k : Str} : ∀ {fs : List FieldSpec}, fieldFor k fs = none ↔ ∀ f ∈ fs, k ∉ f.names
  | [] => by simp [fieldFor]
  | g :: fs => by
    simp only [fieldFor, List.forall_mem_cons]
    split
    · rename_i h; simp [h]
    · rename_i h; simp [h, fieldFor_none]

theorem fieldFor_of_mem {k : Str} {f : FieldSpec} : ∀ {fs : List FieldSpec}, (fs.flatMap FieldSpec.names).Nodup → f ∈ fs →
    k ∈ f.names → fieldFor k fs = some f
  | [], _, h, _ => by cases h
  | g :: fs, hn, h, hk => by
    rw [List.flatMap_cons, List.nodup_append] at hn
    simp only [fieldFor]
    rcases List.mem_cons.1 h with rfl | h
    · simp [hk]
    · have : k ∉ g.names := fun hg => hn.2.2 k hg k (List.mem_flatMap.2 ⟨f, h, hk⟩) rfl
      simp [this, fieldFor_of_mem hn.2.1 h hk]

theorem name_inj {fs : List FieldSpec} (hn : (fs.flatMap FieldSpec.names).Nodup) {f g : FieldSpec} (hf : f ∈ fs) (hg : g ∈ fs)
    (h : f.name = g.name) : f = g := by
  have h1 := fieldFor_of_mem (k := f.name) hn hf (by simp [FieldSpec.names])
  have h2 := fieldFor_of_mem (k := f.name) hn hg (by simp [FieldSpec.names, h])
  rw [h1] at h2; injection h2

/-- no name is yielded twice, whatever ends the sequence -/
theorem drains_nodup {a : MapAcc} {es : List (CowStr × Node)} {s : Stop} (h : Drains a es s) :
    (es.map fun p => p.1.str).Nodup ∧ ∀ p ∈ es, p.1.str ∉ a.given := by
  induction h with
  | done a a' h1 => simp
  | keyError a a' e h1 => simp
  | keyPanic a a' h1 => simp
  | valueError a a' a'' k e h1 h2 => simp
  | valuePanic a a' a'' k h1 h2 => simp
  | entry a a' a'' k n es s h1 h2 h3 ih =>
    rcases nextKey_cases a with ⟨-, i2⟩ | ⟨k', n', b, i1, -, -, -, -, i5, i6⟩ | ⟨r, b, i1, i2, -⟩
    · rw [h1] at i2; cases i2
    · rw [h1] at i1; cases i1
      have hg : a''.given = a'.given := by
        rcases nextValue_cases a' with ⟨j0, j⟩ | ⟨n, c, -, j, -, -, -, j5⟩
        · rw [h2] at j; cases j
        · rw [h2] at j; cases j; exact j5
      rw [hg, i6] at ih
      refine ⟨?_, ?_⟩
      · rw [List.map_cons, List.nodup_cons]
        refine ⟨fun hm => ?_, ih.1⟩
        obtain ⟨p, hp, he⟩ := List.mem_map.1 hm
        exact ih.2 p hp (by rw [he]; simp)
      · intro p hp
        rcases List.mem_cons.1 hp with rfl | hp
        · exact i5
        · exact fun hc => ih.2 p hp (List.mem_cons_of_mem _ hc)
    · rw [h1] at i1; cases i1; rcases i2 with ⟨e, i2⟩ | i2 <;> cases i2

/-! ## successful runs -/

/-- the fields that the entries are for, with the values -/
def forFields (S : StructSpec) (es : List (CowStr × Node)) : List (FieldSpec × Node) :=
  es.filterMap fun p => (fieldFor p.1.str S.fields).map fun f => (f, p.2)

theorem runAttrs_ok {S : StructSpec} {ignore : Node → Res DeErr DVal} {s : Stop} :
    ∀ {es : List (CowStr × Node)} {found out : List (Str × DVal)}, (found.map Prod.fst).Nodup →
    (runAttrs S ignore es s found = .ok out ↔
      s = .done ∧ (∃ new, out = found ++ new ∧ (out.map Prod.fst).Nodup ∧
        AllRel (fun (p : FieldSpec × Node) q => q.1 = p.1.name ∧ p.1.read p.2 = .ok q.2) (forFields S es) new) ∧
      ∀ p ∈ es, fieldFor p.1.str S.fields = none → S.deny = false ∧ ∃ w, ignore p.2 = .ok w)
  | [], found, out, hn => by
    cases s with
    | done =>
      simp only [runAttrs, Res.ok.injEq]
      constructor
      · rintro rfl; exact ⟨trivial, ⟨[], by simp, hn, .nil⟩, by simp⟩
      · rintro ⟨-, ⟨new, rfl, -, h⟩, -⟩; cases h; simp
    | error e => simp [runAttrs]
    | panicked => simp [runAttrs]
  | (k, n) :: es, found, out, hn => by
    simp only [runAttrs, List.forall_mem_cons]
    cases hf : fieldFor k.str S.fields with
    | none =>
      have hfor : forFields S ((k, n) :: es) = forFields S es := by simp [forFields, hf]
      rw [hfor]
      cases hd : S.deny with
      | true => simp
      | false =>
        simp only [Bool.false_eq_true, if_false, bind_ok, true_and, forall_const]
        constructor
        · rintro ⟨w, hw, h⟩
          obtain ⟨h1, h2, h3⟩ := (runAttrs_ok hn).1 h
          exact ⟨h1, h2, ⟨w, hw⟩, fun p hp hx => (h3 p hp hx).2⟩
        · rintro ⟨h1, h2, ⟨w, hw⟩, h4⟩
          exact ⟨w, hw, (runAttrs_ok hn).2 ⟨h1, h2, fun p hp hx => ⟨hd, h4 p hp hx⟩⟩⟩
    | some f =>
      have hfor : forFields S ((k, n) :: es) = (f, n) :: forFields S es := by simp [forFields, hf]
      rw [hfor]
      simp only [reduceCtorEq, false_implies, true_and]
      cases hq : field? f.name found with
      | some v =>
        simp only [Option.isSome_some, if_true, reduceCtorEq, false_iff]
        rintro ⟨-, ⟨new, rfl, h2, h3⟩, -⟩
        cases h3 with
        | cons _ q _ new h4 h5 =>
          rw [List.map_append, List.nodup_append] at h2
          exact h2.2.2 f.name (List.mem_map.2 ⟨_, field?_mem hq, rfl⟩) q.1 (by simp) h4.1.symm
      | none =>
        simp only [Option.isSome_none, Bool.false_eq_true, if_false, bind_ok]
        have hn' : ∀ v, ((found ++ [(f.name, v)]).map Prod.fst).Nodup := fun v => by
          rw [List.map_append, List.nodup_append]
          refine ⟨hn, by simp, fun x hx y hy hxy => ?_⟩
          simp at hy; subst hy; subst hxy
          exact field?_none.1 hq hx
        constructor
        · rintro ⟨v, hv, h⟩
          obtain ⟨h1, ⟨new, rfl, h2, h3⟩, h4⟩ := (runAttrs_ok (hn' v)).1 h
          exact ⟨h1, ⟨(f.name, v) :: new, by simp, h2, .cons _ _ _ _ ⟨rfl, hv⟩ h3⟩, h4⟩
        · rintro ⟨h1, ⟨new, rfl, h2, h3⟩, h4⟩
          cases h3 with
          | cons _ q _ new h5 h6 =>
            obtain ⟨qk, qv⟩ := q
            obtain ⟨h5, h7⟩ := h5
            cases h5
            exact ⟨qv, h7, (runAttrs_ok (hn' qv)).2 ⟨h1, ⟨new, by simp, by simpa using h2, h6⟩, h4⟩⟩

theorem FieldSpec.missing_ok {f : FieldSpec} {v : DVal} : f.missing = .ok v ↔ Absent f v := by
  unfold FieldSpec.missing Absent
  cases f.default with
  | some d => simp
  | none =>
    cases f.optional with
    | true => simp [eq_comm]
    | false => simp

theorem fillFields_ok {found : List (Str × DVal)} : ∀ {fs : List FieldSpec} {vs : List (Str × DVal)},
    fillFields found fs = .ok vs ↔
      AllRel (fun f q => q.1 = f.name ∧ (field? f.name found = some q.2 ∨ (field? f.name found = none ∧ Absent f q.2))) fs vs
  | [], vs => by
    constructor
    · intro h; cases h; exact .nil
    · intro h; cases h; rfl
  | f :: fs, vs => by
    have hv : ∀ v, f.value found = .ok v ↔ field? f.name found = some v ∨ (field? f.name found = none ∧ Absent f v) := fun v => by
      unfold FieldSpec.value
      cases field? f.name found with
      | some w => simp
      | none => simp [FieldSpec.missing_ok]
    simp only [fillFields, bind_ok, map_ok, hv]
    constructor
    · rintro ⟨v, h1, vs', h2, rfl⟩
      exact .cons _ _ _ _ ⟨rfl, h1⟩ (fillFields_ok.1 h2)
    · intro h
      cases h with
      | cons _ q _ vs' h1 h2 =>
        obtain ⟨qk, qv⟩ := q
        obtain ⟨h1, h3⟩ := h1
        cases h1
        exact ⟨qv, h3, vs', fillFields_ok.2 h2, rfl⟩

theorem mem_forFields {S : StructSpec} {es : List (CowStr × Node)} {p : FieldSpec × Node} :
    p ∈ forFields S es ↔ ∃ e ∈ es, fieldFor e.1.str S.fields = some p.1 ∧ e.2 = p.2 := by
  unfold forFields
  rw [List.mem_filterMap]
  constructor
  · rintro ⟨e, he, h⟩
    cases hf : fieldFor e.1.str S.fields with
    | none => rw [hf] at h; cases h
    | some f => rw [hf] at h; cases h; exact ⟨e, he, hf, rfl⟩
  · rintro ⟨e, he, h1, h2⟩
    refine ⟨e, he, ?_⟩
    rw [h1, h2]; rfl

/-- the fields are given at most once each, if no field is given under two names -/
theorem forFields_nodup {S : StructSpec} (hS : ProperSpec S) : ∀ {es : List (CowStr × Node)}, (es.map fun p => p.1.str).Nodup →
    (((forFields S es).map fun p => p.1.name).Nodup ↔
      ∀ f ∈ S.fields, ∀ p ∈ es, ∀ q ∈ es, p.1.str ∈ f.names → q.1.str ∈ f.names → p.1.str = q.1.str)
  | [], _ => by simp [forFields]
  | (k, n) :: es, hn => by
    rw [List.map_cons, List.nodup_cons] at hn
    have ih := forFields_nodup hS hn.2
    cases hf : fieldFor k.str S.fields with
    | none =>
      have hfor : forFields S ((k, n) :: es) = forFields S es := by simp [forFields, hf]
      rw [hfor, ih]
      have hno := fieldFor_none.1 hf
      constructor
      · intro h f hm p hp q hq h1 h2
        rcases List.mem_cons.1 hp with rfl | hp
        · exact absurd h1 (hno f hm)
        rcases List.mem_cons.1 hq with rfl | hq
        · exact absurd h2 (hno f hm)
        exact h f hm p hp q hq h1 h2
      · exact fun h f hm p hp q hq => h f hm p (List.mem_cons_of_mem _ hp) q (List.mem_cons_of_mem _ hq)
    | some g =>
      have hfor : forFields S ((k, n) :: es) = (g, n) :: forFields S es := by simp [forFields, hf]
      obtain ⟨hg, hk⟩ := fieldFor_some hf
      rw [hfor, List.map_cons, List.nodup_cons, ih]
      constructor
      · rintro ⟨h1, h2⟩ f hm p hp q hq h3 h4
        have key : ∀ q ∈ es, q.1.str ∈ g.names → False := fun q hq h => by
          refine h1 (List.mem_map.2 ⟨(g, q.2), mem_forFields.2 ⟨q, hq, fieldFor_of_mem hS hg h, rfl⟩, rfl⟩)
        rcases List.mem_cons.1 hp with rfl | hp <;> rcases List.mem_cons.1 hq with rfl | hq
        · rfl
        · have : f = g := by
            have := (fieldFor_of_mem hS hm h3).symm.trans hf
            injection this
          subst this; exact (key q hq h4).elim
        · have : f = g := by
            have := (fieldFor_of_mem hS hm h4).symm.trans hf
            injection this
          subst this; exact (key p hp h3).elim
        · exact h2 f hm p hp q hq h3 h4
      · intro h
        refine ⟨fun hm => ?_, fun f hm p hp q hq => h f hm p (List.mem_cons_of_mem _ hp) q (List.mem_cons_of_mem _ hq)⟩
        obtain ⟨p, hp, he⟩ := List.mem_map.1 hm
        obtain ⟨e, he1, he2, -⟩ := mem_forFields.1 hp
        obtain ⟨h1, h2⟩ := fieldFor_some he2
        have hpg := name_inj hS h1 hg he
        rw [hpg] at h2
        have := h g hg (k, n) (by simp) e (List.mem_cons_of_mem _ he1) hk h2
        exact hn.1 (List.mem_map.2 ⟨e, he1, this.symm⟩)

theorem allRel_fieldNames {es : List (FieldSpec × Node)} {vs : List (Str × DVal)} {R : FieldSpec × Node → Str × DVal → Prop}
    (h : AllRel R es vs) (hk : ∀ p q, R p q → q.1 = p.1.name) : vs.map Prod.fst = es.map fun p => p.1.name := by
  induction h with
  | nil => rfl
  | cons p q es vs h _ ih => simp [ih, hk p q h]

private theorem nodup_map_unique {α β : Type} {f : α → β} {l : List α} (h : (l.map f).Nodup) :
    ∀ p ∈ l, ∀ p' ∈ l, f p = f p' → p = p' := by
  induction l with
  | nil => intro p hp; cases hp
  | cons a l ih =>
    rw [List.map_cons, List.nodup_cons] at h
    intro p hp p' hp' hf
    cases hp with
    | head =>
      cases hp' with
      | head => rfl
      | tail _ hp' => exact absurd (List.mem_map.2 ⟨p', hp', hf.symm⟩) h.1
    | tail _ hp =>
      cases hp' with
      | head => exact absurd (List.mem_map.2 ⟨p, hp, hf⟩) h.1
      | tail _ hp' => exact ih h.2 p hp p' hp' hf

/-- reading entries with different names -/
theorem runAttrs_fill {S : StructSpec} (hS : ProperSpec S) {ignore : Node → Res DeErr DVal} {es : List (CowStr × Node)} {s : Stop}
    (hn : (es.map fun p => p.1.str).Nodup) {v : DVal} :
    ((runAttrs S ignore es s []).bind fun found => (fillFields found S.fields).map .entries) = .ok v ↔
      s = .done ∧ ReadsSpec (fun n => ∃ w, ignore n = .ok w) S (fun k n => ∃ p ∈ es, p.1.str = k ∧ p.2 = n) v := by
  simp only [bind_ok, map_ok, runAttrs_ok (S := S) (ignore := ignore) (s := s) (es := es) (found := []) (by simp), List.nil_append]
  have huniq := nodup_map_unique (f := fun p : CowStr × Node => p.1.str) hn
  constructor
  · rintro ⟨found, ⟨hs, ⟨_, rfl, hfn, hrel⟩, hig⟩, vs, hfill, rfl⟩
    have hnames := allRel_fieldNames hrel fun p q h => h.1
    refine ⟨hs, ?_, ⟨vs, rfl, (fillFields_ok.1 hfill).imp fun f q hf _ ⟨h1, h2⟩ => ⟨h1, ?_⟩⟩, ?_⟩
    · rw [hnames, forFields_nodup hS hn] at hfn
      rintro f hf k n k' n' hk hk' ⟨p, hp, rfl, rfl⟩ ⟨q, hq, rfl, rfl⟩
      exact hfn f hf p hp q hq hk hk'
    · rcases h2 with h2 | ⟨h2, h3⟩
      · obtain ⟨p, hp, h4, h5⟩ := hrel.right (field?_mem h2)
        obtain ⟨e, he, h6, h7⟩ := mem_forFields.1 hp
        obtain ⟨h8, h9⟩ := fieldFor_some h6
        have : p.1 = f := name_inj hS h8 hf h4.symm
        rw [this] at h9 h5
        exact .inl ⟨e.1.str, p.2, h9, ⟨e, he, rfl, h7⟩, h5⟩
      · refine .inr ⟨?_, h3⟩
        rintro k n hk ⟨p, hp, rfl, rfl⟩
        refine field?_none.1 h2 ?_
        rw [hnames]
        exact List.mem_map.2 ⟨(f, p.2), mem_forFields.2 ⟨p, hp, fieldFor_of_mem hS hf hk, rfl⟩, rfl⟩
    · rintro k n ⟨p, hp, rfl, rfl⟩ hk
      exact hig p hp (fieldFor_none.2 fun f hf h => hk ⟨f, hf, h⟩)
  · rintro ⟨hs, h1, ⟨vs, rfl, h2⟩, h3⟩
    have hd := (forFields_nodup hS hn).2 fun f hf p hp q hq hk hk' =>
      h1 f hf p.1.str p.2 q.1.str q.2 hk hk' ⟨p, hp, rfl, rfl⟩ ⟨q, hq, rfl, rfl⟩
    obtain ⟨found, hfound⟩ := AllRel.exists_of (as := forFields S es)
      (R := fun (p : FieldSpec × Node) (q : Str × DVal) => q.1 = p.1.name ∧ p.1.read p.2 = .ok q.2) (by
        intro p hp
        obtain ⟨e, he, h6, h7⟩ := mem_forFields.1 hp
        obtain ⟨h8, h9⟩ := fieldFor_some h6
        obtain ⟨q, -, -, hq⟩ := h2.left h8
        rcases hq with ⟨k, n, hk, ⟨e', he', rfl, rfl⟩, hr⟩ | ⟨hno, -⟩
        · have := huniq e he e' he' (h1 _ h8 _ _ _ _ h9 hk ⟨e, he, rfl, rfl⟩ ⟨e', he', rfl, rfl⟩)
          subst this
          rw [h7] at hr
          exact ⟨(p.1.name, q.2), rfl, hr⟩
        · exact absurd ⟨e, he, rfl, rfl⟩ (hno _ e.2 h9))
    have hnames := allRel_fieldNames hfound fun p q h => h.1
    have hfn : (found.map Prod.fst).Nodup := by rw [hnames]; exact hd
    refine ⟨found, ⟨hs, ⟨found, rfl, hfn, hfound⟩, fun p hp hx => ?_⟩, vs, fillFields_ok.2 (h2.imp fun f q hf _ ⟨i1, i2⟩ => ⟨i1, ?_⟩), rfl⟩
    · refine h3 p.1.str p.2 ⟨p, hp, rfl, rfl⟩ ?_
      rintro ⟨f, hf, hk⟩
      exact fieldFor_none.1 hx f hf hk
    · rcases i2 with ⟨k, n, hk, ⟨e, he, rfl, rfl⟩, hr⟩ | ⟨hno, ha⟩
      · obtain ⟨r, hr1, hr2, hr3⟩ := hfound.left ((mem_forFields (p := (f, e.2))).2 ⟨e, he, fieldFor_of_mem hS hf hk, rfl⟩)
        dsimp only at hr2 hr3
        have : r.2 = q.2 := by
          have h7 := hr3.symm.trans hr
          injection h7
        left
        rw [← this, ← hr2]
        exact field?_of_mem hr1 hfn
      · right
        refine ⟨field?_none.2 fun hm => ?_, ha⟩
        rw [hnames] at hm
        obtain ⟨p, hp, h4⟩ := List.mem_map.1 hm
        obtain ⟨e, he, h6, h7⟩ := mem_forFields.1 hp
        obtain ⟨h8, h9⟩ := fieldFor_some h6
        have : p.1 = f := name_inj hS h8 hf h4
        rw [this] at h9
        exact hno _ e.2 h9 ⟨e, he, rfl, rfl⟩

/-- the entries at the front of a body are yielded first, whatever follows -/
theorem drains_body_front {l : List (CowStr × BodyValue)} : ∀ {v : Option BodyValue} {seen : List Str},
    (l.map fun p => p.1.str).Nodup → (∀ p ∈ l, p.1.str ∉ seen) → ∀ (rest : List (CowStr × BodyValue)),
    ∃ es s, Drains (.body ⟨l ++ rest, v, seen⟩) (l.map (fun p => (p.1, p.2.node)) ++ es) s := by
  induction l with
  | nil =>
    intro v seen _ _ rest
    obtain ⟨es, s, h, -⟩ := drains_exists (.body ⟨rest, v, seen⟩)
    exact ⟨es, s, h⟩
  | cons p l ih =>
    intro v seen hn hs rest
    obtain ⟨k, x⟩ := p
    simp only [List.map_cons, List.nodup_cons] at hn
    have hk : k.str ∉ seen := hs (k, x) (by simp)
    obtain ⟨es, s, h⟩ := ih (v := none) (seen := k.str :: seen) hn.2 (by
      intro p hp hc
      rcases List.mem_cons.1 hc with hc | hc
      · exact hn.1 (hc ▸ List.mem_map_of_mem hp)
      · exact hs p (by simp [hp]) hc) rest
    refine ⟨es, s, .entry _ (.body ⟨l ++ rest, some x, k.str :: seen⟩) (.body ⟨l ++ rest, none, k.str :: seen⟩) k x.node _ _ ?_ ?_ h⟩
    · simp only [MapAcc.nextKey, List.cons_append, body_nextKey_new hk]
    · simp only [MapAcc.nextValue, body_nextValue]

theorem runAttrs_append {S : StructSpec} {ignore : Node → Res DeErr DVal} {s : Stop} {es' : List (CowStr × Node)} :
    ∀ {es : List (CowStr × Node)} {found out : List (Str × DVal)}, runAttrs S ignore es .done found = .ok out →
      runAttrs S ignore (es ++ es') s found = runAttrs S ignore es' s out
  | [], found, out, h => by cases h; rfl
  | (k, n) :: es, found, out, h => by
    simp only [runAttrs, List.cons_append] at h ⊢
    cases hf : fieldFor k.str S.fields with
    | none =>
      rw [hf] at h
      simp only at h ⊢
      split at h
      · cases h
      · rename_i hd
        obtain ⟨w, hw, h⟩ := bind_ok.1 h
        rw [if_neg hd, hw]
        exact runAttrs_append h
    | some f =>
      rw [hf] at h
      simp only at h ⊢
      split at h
      · cases h
      · rename_i hd
        obtain ⟨w, hw, h⟩ := bind_ok.1 h
        rw [if_neg hd, hw]
        exact runAttrs_append h

theorem runAttrs_diverge {S : StructSpec} {ignore : Node → Res DeErr DVal} {s : Stop} (hi : ∀ n, ignore n ≠ .diverge)
    (hr : ∀ f ∈ S.fields, ∀ n, f.read n ≠ .diverge) :
    ∀ {es : List (CowStr × Node)} {found : List (Str × DVal)}, runAttrs S ignore es s found ≠ .diverge
  | [], found => by cases s <;> simp [runAttrs]
  | (k, n) :: es, found => by
    simp only [runAttrs]
    cases hf : fieldFor k.str S.fields with
    | none =>
      simp only
      split
      · simp
      · have := hi n
        cases hx : ignore n with
        | ok v => exact runAttrs_diverge hi hr
        | diverge => exact absurd hx this
        | error e => simp [Res.bind]
        | panic => simp [Res.bind]
    | some f =>
      simp only
      split
      · simp
      · have := hr f (fieldFor_some hf).1 n
        cases hx : f.read n with
        | ok v => exact runAttrs_diverge hi hr
        | diverge => exact absurd hx this
        | error e => simp [Res.bind]
        | panic => simp [Res.bind]

theorem fillFields_cases {found : List (Str × DVal)} : ∀ {fs : List FieldSpec},
    (∃ vs, fillFields found fs = .ok vs) ∨ fillFields found fs = .error .custom
  | [] => .inl ⟨_, rfl⟩
  | f :: fs => by
    have hv : (∃ v, f.value found = .ok v) ∨ f.value found = .error .custom := by
      unfold FieldSpec.value FieldSpec.missing
      cases field? f.name found with
      | some v => exact .inl ⟨_, rfl⟩
      | none =>
        cases f.default with
        | some d => exact .inl ⟨_, rfl⟩
        | none => cases f.optional <;> simp
    simp only [fillFields]
    rcases hv with ⟨v, hv⟩ | hv
    · rw [hv]
      rcases fillFields_cases (found := found) (fs := fs) with ⟨vs, h⟩ | h
      · rw [h]; exact .inl ⟨_, rfl⟩
      · rw [h]; exact .inr rfl
    · rw [hv]; exact .inr rfl

theorem seqFields_ok : ∀ {fs : List FieldSpec} {ns : List Node} {vs : List (Str × DVal)},
    seqFields fs ns = .ok vs ↔ vs.length = fs.length ∧ ∀ i (h : i < fs.length) (h' : i < vs.length),
      vs[i].1 = fs[i].name ∧ (∀ h2 : i < ns.length, fs[i].read ns[i] = .ok vs[i].2) ∧
      (ns.length ≤ i → fs[i].default = some vs[i].2)
  | [], ns, vs => by
    simp only [seqFields, Res.ok.injEq, List.length_nil, List.length_eq_zero_iff]
    constructor
    · rintro rfl; exact ⟨rfl, fun i h => absurd h (Nat.not_lt_zero _)⟩
    · rintro ⟨rfl, -⟩; rfl
  | f :: fs, [], vs => by
    simp only [seqFields]
    cases hd : f.default with
    | none =>
      simp only [reduceCtorEq, false_iff]
      rintro ⟨hl, h⟩
      have := (h 0 (by simp) (by rw [hl]; simp)).2.2 (by simp)
      simp [hd] at this
    | some d =>
      simp only [map_ok]
      constructor
      · rintro ⟨vs', h, rfl⟩
        obtain ⟨h1, h2⟩ := seqFields_ok.1 h
        refine ⟨by simp [h1], fun i hi hi' => ?_⟩
        cases i with
        | zero => exact ⟨rfl, fun h => absurd h (by simp), fun _ => hd⟩
        | succ i =>
          have := h2 i (by simpa using hi) (by simpa using hi')
          exact ⟨this.1, fun h => absurd h (by simp), fun _ => this.2.2 (by simp)⟩
      · rintro ⟨hl, h⟩
        cases vs with
        | nil => simp at hl
        | cons q vs =>
          obtain ⟨i1, -, i3⟩ := h 0 (by simp) (by simp)
          have i3 := i3 (by simp)
          simp only [List.getElem_cons_zero, hd, Option.some.injEq] at i1 i3
          refine ⟨vs, seqFields_ok.2 ⟨by simpa using hl, fun i hi hi' => ?_⟩, ?_⟩
          · have := h (i + 1) (by simpa using hi) (by simpa using hi')
            exact ⟨this.1, fun h => absurd h (by simp), fun _ => this.2.2 (by simp)⟩
          · rw [i3, ← i1]
  | f :: fs, n :: ns, vs => by
    simp only [seqFields, bind_ok, map_ok]
    constructor
    · rintro ⟨v, hv, vs', h, rfl⟩
      obtain ⟨h1, h2⟩ := seqFields_ok.1 h
      refine ⟨by simp [h1], fun i hi hi' => ?_⟩
      cases i with
      | zero => exact ⟨rfl, fun _ => hv, fun h => absurd h (by simp)⟩
      | succ i =>
        have := h2 i (by simpa using hi) (by simpa using hi')
        exact ⟨this.1, fun h => this.2.1 (by simpa using h), fun h => this.2.2 (by simpa using h)⟩
    · rintro ⟨hl, h⟩
      cases vs with
      | nil => simp at hl
      | cons q vs =>
        obtain ⟨i1, i2, -⟩ := h 0 (by simp) (by simp)
        have i2 := i2 (by simp)
        simp only [List.getElem_cons_zero] at i1 i2
        refine ⟨q.2, i2, vs, seqFields_ok.2 ⟨by simpa using hl, fun i hi hi' => ?_⟩, ?_⟩
        · have := h (i + 1) (by simpa using hi) (by simpa using hi')
          exact ⟨this.1, fun h => this.2.1 (by simpa using h), fun h => this.2.2 (by simpa using h)⟩
        · rw [← i1]

/-! ## structs without attributes -/

private theorem fieldFor_plain {rd : Ty → Node → Res DeErr DVal} {op : Ty → Bool} {k : Str} : ∀ {fs : List (Str × Ty)},
    fieldFor k (fs.map fun p => ⟨p.1, [], rd p.2, none, op p.2⟩) = (field? k fs).map fun t => ⟨k, [], rd t, none, op t⟩
  | [] => rfl
  | (k', t) :: fs => by
    simp only [List.map_cons, fieldFor, FieldSpec.names, field?, List.mem_singleton]
    by_cases h : k' = k
    · subst h; simp
    · rw [if_neg (Ne.symm h), if_neg h]; exact fieldFor_plain

theorem runAttrs_plain {rd : Ty → Node → Res DeErr DVal} {op : Ty → Bool} {fs : List (Str × Ty)} {s : Stop} :
    ∀ {es : List (CowStr × Node)} {found : List (Str × DVal)}, (es.map fun p => p.1.str).Nodup →
      (∀ p ∈ es, p.1.str ∉ found.map Prod.fst) →
      runAttrs ⟨fs.map fun p => ⟨p.1, [], rd p.2, none, op p.2⟩, false⟩ (rd .ignored) es s found =
        (runEntries (fun k => rd ((field? k fs).getD .ignored)) es s).map fun vs => found ++ vs.filter fun q => (field? q.1 fs).isSome
  | [], found, _, _ => by cases s <;> simp [runAttrs, runEntries, Res.map, Res.bind]
  | (k, n) :: es, found, hn, hd => by
    rw [List.map_cons, List.nodup_cons] at hn
    simp only [runAttrs, runEntries, fieldFor_plain]
    cases hf : field? k.str fs with
    | none =>
      simp only [Option.map_none, Bool.false_eq_true, if_false, Option.getD_none]
      cases rd .ignored n with
      | ok v =>
        simp only [Res.bind]
        rw [runAttrs_plain hn.2 fun p hp => hd p (List.mem_cons_of_mem _ hp)]
        cases runEntries (fun k => rd ((field? k fs).getD .ignored)) es s <;> simp [Res.map, Res.bind, hf]
      | error e => rfl
      | panic => rfl
      | diverge => rfl
    | some t =>
      have : field? k.str found = none := field?_none.2 (hd (k, n) (by simp))
      simp only [Option.map_some, this, Option.isSome_none, Bool.false_eq_true, if_false, Option.getD_some]
      cases rd t n with
      | ok v =>
        simp only [Res.bind]
        rw [runAttrs_plain hn.2 fun p hp => by
          rw [List.map_append, List.mem_append, not_or]
          refine ⟨hd p (List.mem_cons_of_mem _ hp), fun h => hn.1 ?_⟩
          simp at h
          exact List.mem_map.2 ⟨p, hp, h⟩]
        cases runEntries (fun k => rd ((field? k fs).getD .ignored)) es s <;> simp [Res.map, Res.bind, hf]
      | error e => rfl
      | panic => rfl
      | diverge => rfl

private theorem field?_filter {α : Type} {k : Str} {p : Str → Bool} (hk : p k = true) : ∀ {l : List (Str × α)},
    field? k (l.filter fun q => p q.1) = field? k l
  | [] => rfl
  | (k', v) :: l => by
    rw [List.filter_cons]
    by_cases h : k' = k
    · subst h; simp [hk, field?]
    · split <;> simp [field?, h, field?_filter hk]

theorem fillFields_plain {rd : Ty → Node → Res DeErr DVal} {op : Ty → Bool} (hop : ∀ t, op t = true ↔ ∃ t', t = .option t')
    {p : Str → Bool} {vs : List (Str × DVal)} : ∀ {fs : List (Str × Ty)}, (∀ q ∈ fs, p q.1 = true) →
    fillFields (vs.filter fun q => p q.1) (fs.map fun p => ⟨p.1, [], rd p.2, none, op p.2⟩) = structFields vs fs
  | [], _ => rfl
  | (k, t) :: fs, h => by
    have ih := fillFields_plain (rd := rd) (op := op) hop (p := p) (vs := vs) (fs := fs) fun q hq => h q (List.mem_cons_of_mem _ hq)
    simp only [List.map_cons, fillFields, FieldSpec.value, FieldSpec.missing, field?_filter (h (k, t) (by simp)), ih, structFields]
    cases field? k vs with
    | some v => rfl
    | none =>
      by_cases ho : ∃ t', t = .option t'
      · obtain ⟨t', rfl⟩ := ho
        simp [(hop _).2 ⟨t', rfl⟩, Res.bind]
      · have : op t = false := by
          cases hb : op t with
          | false => rfl
          | true => exact absurd ((hop t).1 hb) ho
        simp only [this]
        cases t <;> first | rfl | exact absurd ⟨_, rfl⟩ ho

theorem seqFields_plain {rd : Ty → Node → Res DeErr DVal} {op : Ty → Bool} : ∀ {fs : List (Str × Ty)} {ns : List Node},
    seqFields (fs.map fun p => ⟨p.1, [], rd p.2, none, op p.2⟩) ns =
      (deFields rd (fs.map Prod.snd) ns).map fun vs => (fs.map Prod.fst).zip vs
  | [], ns => by simp [seqFields, deFields, Res.map, Res.bind]
  | (k, t) :: fs, [] => by simp [seqFields, deFields, Res.map, Res.bind]
  | (k, t) :: fs, n :: ns => by
    simp only [List.map_cons, seqFields, deFields]
    cases rd t n with
    | ok v =>
      simp only [Res.bind]
      rw [seqFields_plain]
      cases deFields rd (fs.map Prod.snd) ns <;> rfl
    | error e => rfl
    | panic => rfl
    | diverge => rfl

theorem seqFields_diverge : ∀ {fs : List FieldSpec} {ns : List Node}, (∀ f ∈ fs, ∀ n, f.read n ≠ .diverge) →
    seqFields fs ns ≠ .diverge
  | [], ns, _ => by simp [seqFields]
  | f :: fs, [], h => by
    simp only [seqFields]
    have := seqFields_diverge (fs := fs) (ns := []) fun g hg => h g (List.mem_cons_of_mem _ hg)
    cases f.default with
    | none => simp
    | some d => cases hx : seqFields fs [] <;> simp_all [Res.map, Res.bind]
  | f :: fs, n :: ns, h => by
    simp only [seqFields]
    have := seqFields_diverge (fs := fs) (ns := ns) fun g hg => h g (List.mem_cons_of_mem _ hg)
    have h0 := h f (by simp) n
    cases hv : f.read n with
    | ok v => cases hx : seqFields fs ns <;> simp_all [Res.map, Res.bind]
    | diverge => exact absurd hv h0
    | error e => simp [Res.bind]
    | panic => simp [Res.bind]

theorem allRel_split {α β : Type} {R : α → β → Prop} : ∀ {as as' : List α} {bs : List β}, AllRel R (as ++ as') bs →
    ∃ bs1 bs2, bs = bs1 ++ bs2 ∧ AllRel R as bs1 ∧ AllRel R as' bs2
  | [], as', bs, h => ⟨[], bs, rfl, .nil, h⟩
  | a :: as, as', bs, h => by
    cases h with
    | cons _ b _ bs h1 h2 =>
      obtain ⟨bs1, bs2, rfl, h3, h4⟩ := allRel_split h2
      exact ⟨b :: bs1, bs2, rfl, .cons _ _ _ _ h1 h3, h4⟩

theorem allRel_join {α β : Type} {R : α → β → Prop} {as as' : List α} {bs bs' : List β} (h : AllRel R as bs)
    (h' : AllRel R as' bs') : AllRel R (as ++ as') (bs ++ bs') := by
  induction h with
  | nil => exact h'
  | cons a b as bs h1 _ ih => exact .cons _ _ _ _ h1 ih

end Verif
