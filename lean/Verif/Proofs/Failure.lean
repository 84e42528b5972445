import Verif.Spec.Failure
import Verif.Proofs.Reads
import Verif.Props.Reads
/-! # Which failure is reported -/
set_option autoImplicit false

namespace Verif
open Spec

/-! ## results -/

theorem res_ne_ok {α : Type} {F : Failure} {v : α} : (F.res : Res DeErr α) ≠ .ok v := by cases F <;> simp [Failure.res]

theorem res_inj {α : Type} {F G : Failure} (h : (F.res : Res DeErr α) = G.res) : F = G := by
  cases F <;> cases G <;> simp_all [Failure.res]

theorem bind_res {α β : Type} {x : Res DeErr α} {f : α → Res DeErr β} {F : Failure} :
    x.bind f = F.res ↔ x = F.res ∨ ∃ v, x = .ok v ∧ f v = F.res := by
  cases x <;> cases F <;> simp [Res.bind, Failure.res]

theorem map_res {α β : Type} {x : Res DeErr α} {f : α → β} {F : Failure} : x.map f = F.res ↔ x = F.res := by
  cases x <;> cases F <;> simp [Res.map, Res.bind, Failure.res]

theorem error_res {α : Type} {e : DeErr} {F : Failure} : (Res.error e : Res DeErr α) = F.res ↔ F = .error e := by
  cases F <;> simp [Failure.res, eq_comm]

theorem ok_res {α : Type} {v : α} {F : Failure} : (Res.ok v : Res DeErr α) = F.res ↔ False := by
  cases F <;> simp [Failure.res]

theorem panic_res {α : Type} {F : Failure} : (Res.panic : Res DeErr α) = F.res ↔ F = .panic := by
  cases F <;> simp [Failure.res]

/-! ## sequences -/

theorem deAll_res {g : Node → Res DeErr DVal} {F : Failure} : ∀ {ns : List Node},
    deAll g ns = F.res ↔ ∃ pre n post, ns = pre ++ n :: post ∧ (∀ m ∈ pre, ∃ v, g m = .ok v) ∧ g n = F.res
  | [] => by simp [deAll, ok_res]
  | n :: ns => by
    simp only [deAll, bind_res, map_res]
    constructor
    · rintro (h | ⟨v, hv, h⟩)
      · exact ⟨[], n, ns, rfl, by simp, h⟩
      · obtain ⟨pre, m, post, rfl, h1, h2⟩ := deAll_res.1 h
        exact ⟨n :: pre, m, post, rfl, fun x hx => by
          rcases List.mem_cons.1 hx with rfl | hx
          · exact ⟨v, hv⟩
          · exact h1 x hx, h2⟩
    · rintro ⟨pre, m, post, he, h1, h2⟩
      cases pre with
      | nil => cases he; exact .inl h2
      | cons x pre =>
        cases he
        obtain ⟨v, hv⟩ := h1 n (by simp)
        exact .inr ⟨v, hv, deAll_res.2 ⟨pre, m, post, rfl, fun x hx => h1 x (by simp [hx]), h2⟩⟩

theorem deFields_res {f : Ty → Node → Res DeErr DVal} {F : Failure} : ∀ {ts : List Ty} {ns : List Node},
    deFields f ts ns = F.res ↔
      (∃ pre n post u, ns = pre ++ n :: post ∧ ts[pre.length]? = some u ∧
        (∀ (i : Nat) m u, pre[i]? = some m → ts[i]? = some u → ∃ v, f u m = .ok v) ∧ f u n = F.res) ∨
      (F = .error .custom ∧ ns.length < ts.length ∧ ∀ (i : Nat) m u, ns[i]? = some m → ts[i]? = some u → ∃ v, f u m = .ok v)
  | [], ns => by simp [deFields, ok_res]
  | t :: ts, [] => by simp [deFields, error_res]
  | t :: ts, n :: ns => by
    simp only [deFields, bind_res, map_res]
    constructor
    · rintro (h | ⟨v, hv, h⟩)
      · exact .inl ⟨[], n, ns, t, rfl, rfl, by simp, h⟩
      · have hx : ∀ (l : List Node), (∀ (i : Nat) m u, l[i]? = some m → ts[i]? = some u → ∃ v, f u m = .ok v) →
            ∀ (i : Nat) m u, (n :: l)[i]? = some m → (t :: ts)[i]? = some u → ∃ v, f u m = .ok v := by
          intro l h1 i m u h2 h3
          cases i with
          | zero =>
            simp only [List.getElem?_cons_zero, Option.some.injEq] at h2 h3
            subst h2 h3; exact ⟨v, hv⟩
          | succ i => exact h1 i m u (by simpa using h2) (by simpa using h3)
        rcases deFields_res.1 h with ⟨pre, m, post, u, rfl, h1, h2, h3⟩ | ⟨h1, h2, h3⟩
        · exact .inl ⟨n :: pre, m, post, u, rfl, by simpa using h1, hx _ h2, h3⟩
        · exact .inr ⟨h1, by simp; omega, hx _ h3⟩
    · rintro (⟨pre, m, post, u, he, h1, h2, h3⟩ | ⟨h1, h2, h3⟩)
      · cases pre with
        | nil =>
          cases he
          simp only [List.length_nil, List.getElem?_cons_zero, Option.some.injEq] at h1
          subst h1; exact .inl h3
        | cons x pre =>
          cases he
          obtain ⟨v, hv⟩ := h2 0 n t rfl rfl
          exact .inr ⟨v, hv, deFields_res.2 (.inl ⟨pre, m, post, u, rfl, by simpa using h1,
            fun i m u h4 h5 => h2 (i + 1) m u (by simpa using h4) (by simpa using h5), h3⟩)⟩
      · obtain ⟨v, hv⟩ := h3 0 n t rfl rfl
        exact .inr ⟨v, hv, deFields_res.2 (.inr ⟨h1, by simp at h2; omega,
            fun i m u h4 h5 => h3 (i + 1) m u (by simpa using h4) (by simpa using h5)⟩)⟩

/-- `FailsSeq` in terms of a function for the items -/
def SeqRes (g : Ty → Node → Res DeErr DVal) (t : Ty) (ns : List Node) (F : Failure) : Prop :=
  (∃ pre n post u, ns = pre ++ n :: post ∧ itemTy t pre.length = some u ∧
    (∀ (i : Nat) m u, pre[i]? = some m → itemTy t i = some u → ∃ v, g u m = .ok v) ∧ g u n = F.res) ∨
  (F = .error .custom ∧ ∃ k, itemsNeeded t = some k ∧ ns.length < k ∧
    ∀ (i : Nat) m u, ns[i]? = some m → itemTy t i = some u → ∃ v, g u m = .ok v) ∨
  (F = .error .custom ∧ itemsNeeded t = none)

theorem seqRes_all {g : Ty → Node → Res DeErr DVal} {t u : Ty} {ns : List Node} {F : Failure} (h1 : ∀ i, itemTy t i = some u)
    (h2 : itemsNeeded t = some 0) : deAll (g u) ns = F.res ↔ SeqRes g t ns F := by
  rw [deAll_res]
  unfold SeqRes
  simp only [h1, h2, Option.some.injEq, reduceCtorEq, and_false, or_false]
  constructor
  · rintro ⟨pre, n, post, h3, h4, h5⟩
    exact .inl ⟨pre, n, post, u, h3, rfl, fun i m u' hm hu => hu ▸ h4 m (List.mem_of_getElem? hm), h5⟩
  · rintro (⟨pre, n, post, _, h3, rfl, h4, h5⟩ | ⟨-, k, rfl, h, -⟩)
    · refine ⟨pre, n, post, h3, fun m hm => ?_, h5⟩
      obtain ⟨i, hi⟩ := List.getElem?_of_mem hm
      exact h4 i m _ hi rfl
    · omega

theorem seqRes_fields {g : Ty → Node → Res DeErr DVal} {t : Ty} {ts : List Ty} {ns : List Node} {F : Failure}
    (h1 : ∀ i, itemTy t i = ts[i]?) (h2 : itemsNeeded t = some ts.length) : deFields g ts ns = F.res ↔ SeqRes g t ns F := by
  rw [deFields_res]
  unfold SeqRes
  simp only [h1, h2, Option.some.injEq, reduceCtorEq, and_false, or_false, exists_eq_left', and_assoc]

theorem visit_seq_res {I : F64OfInt} {g : Ty → Node → Res DeErr DVal} {t : Ty} {ns : List Node} {F : Failure} :
    visit I g t (.seq ns) = F.res ↔ SeqRes g t ns F := by
  cases t with
  | seq t => simp only [visit, map_res]; exact seqRes_all (fun _ => rfl) rfl
  | ignored => simp only [visit, map_res]; exact seqRes_all (fun _ => rfl) rfl
  | any => simp only [visit, map_res]; exact seqRes_all (fun _ => rfl) rfl
  | bytes u =>
    obtain ⟨_, rfl⟩ := u
    simp only [visit, map_res]; exact seqRes_all (fun _ => rfl) rfl
  | tuple ts => simp only [visit, map_res]; exact seqRes_fields (fun _ => rfl) rfl
  | tupleStruct ts => simp only [visit, map_res]; exact seqRes_fields (fun _ => rfl) rfl
  | struct fs => simp only [visit, map_res]; exact seqRes_fields (fun _ => rfl) (by simp [itemsNeeded])
  | newtype t =>
    have hi : ∀ i u, itemTy (.newtype t) i = some u ↔ i = 0 ∧ u = t := by
      intro i u
      cases i <;> simp [itemTy, eq_comm]
    cases ns with
    | nil => simp [visit, SeqRes, error_res, itemsNeeded]
    | cons n ns =>
      simp only [visit, SeqRes, hi, itemsNeeded, reduceCtorEq, and_false, or_false, Option.some.injEq, exists_eq_left',
        List.length_cons]
      constructor
      · intro h; exact .inl ⟨[], n, ns, t, rfl, ⟨rfl, rfl⟩, by simp, h⟩
      · rintro (⟨pre, m, post, u, he, ⟨h1, rfl⟩, -, h2⟩ | ⟨-, h, -⟩)
        · rw [List.length_eq_zero_iff] at h1
          subst h1; cases he; exact h2
        · omega
  | _ => simp [visit, SeqRes, error_res, itemsNeeded, itemTy]

/-! ## maps -/

theorem runEntries_res {f : Str → Node → Res DeErr DVal} {s : Stop} {F : Failure} : ∀ {es : List (CowStr × Node)},
    runEntries f es s = F.res ↔
      (∃ pre k n post, es = pre ++ (k, n) :: post ∧ (∀ p ∈ pre, ∃ v, f p.1.str p.2 = .ok v) ∧ f k.str n = F.res) ∨
      ((∀ p ∈ es, ∃ v, f p.1.str p.2 = .ok v) ∧ s = F.stop)
  | [] => by cases s <;> cases F <;> simp [runEntries, Failure.res, Failure.stop]
  | (k, n) :: es => by
    simp only [runEntries, bind_res, map_res]
    constructor
    · rintro (h | ⟨v, hv, h⟩)
      · exact .inl ⟨[], k, n, es, rfl, by simp, h⟩
      · have hx : ∀ l : List (CowStr × Node), (∀ p ∈ l, ∃ v, f p.1.str p.2 = .ok v) →
            ∀ p ∈ (k, n) :: l, ∃ v, f p.1.str p.2 = .ok v := by
          intro l hl p hp
          rcases List.mem_cons.1 hp with rfl | hp
          · exact ⟨v, hv⟩
          · exact hl p hp
        rcases runEntries_res.1 h with ⟨pre, k', m, post, rfl, h1, h2⟩ | ⟨h1, h2⟩
        · exact .inl ⟨(k, n) :: pre, k', m, post, rfl, hx _ h1, h2⟩
        · exact .inr ⟨hx _ h1, h2⟩
    · rintro (⟨pre, k', m, post, he, h1, h2⟩ | ⟨h1, h2⟩)
      · cases pre with
        | nil => cases he; exact .inl h2
        | cons x pre =>
          cases he
          obtain ⟨v, hv⟩ := h1 (k, n) (by simp)
          exact .inr ⟨v, hv, runEntries_res.2 (.inl ⟨pre, k', m, post, rfl, fun x hx => h1 x (by simp [hx]), h2⟩)⟩
      · obtain ⟨v, hv⟩ := h1 (k, n) (by simp)
        exact .inr ⟨v, hv, runEntries_res.2 (.inr ⟨fun x hx => h1 x (by simp [hx]), h2⟩)⟩

theorem structFields_res {found : List (Str × DVal)} {F : Failure} : ∀ {fs : List (Str × Ty)},
    structFields found fs = F.res ↔
      F = .error .custom ∧ ∃ k t, (k, t) ∈ fs ∧ k ∉ found.map Prod.fst ∧ ∀ t', t ≠ .option t'
  | [] => by simp [structFields, ok_res]
  | (k, t) :: fs => by
    simp only [structFields]
    have ih := structFields_res (found := found) (F := F) (fs := fs)
    cases hf : field? k found with
    | some v =>
      simp only [map_res, ih]
      have hk : k ∈ found.map Prod.fst := Classical.byContradiction fun h => by
        rw [field?_none.2 h] at hf; cases hf
      constructor
      · rintro ⟨h, k', t', h1, h2, h3⟩; exact ⟨h, k', t', by simp [h1], h2, h3⟩
      · rintro ⟨h, k', t', h1, h2, h3⟩
        rcases List.mem_cons.1 h1 with h1 | h1
        · cases h1; exact absurd hk h2
        · exact ⟨h, k', t', h1, h2, h3⟩
    | none =>
      have hk := field?_none.1 hf
      by_cases ho : ∃ t', t = .option t'
      · obtain ⟨t', rfl⟩ := ho
        simp only [map_res, ih]
        constructor
        · rintro ⟨h, k', t', h1, h2, h3⟩; exact ⟨h, k', t', by simp [h1], h2, h3⟩
        · rintro ⟨h, k', t', h1, h2, h3⟩
          rcases List.mem_cons.1 h1 with h1 | h1
          · cases h1; exact absurd rfl (h3 _)
          · exact ⟨h, k', t', h1, h2, h3⟩
      · have ho : ∀ t', t ≠ .option t' := fun t' h => ho ⟨t', h⟩
        have : ∀ X : Res DeErr (List (Str × DVal)), (match (none : Option DVal), t with
            | some v, _ => X
            | none, .option _ => X
            | none, _ => (.error .custom : Res DeErr (List (Str × DVal)))) = .error .custom := by
          intro X
          cases t <;> first | rfl | exact absurd rfl (ho _)
        constructor
        · intro h
          cases t with
          | option t => exact absurd rfl (ho t)
          | _ =>
            refine ⟨error_res.1 h, k, _, by simp, hk, ho⟩
        · rintro ⟨rfl, -⟩
          cases t with
          | option t => exact absurd rfl (ho t)
          | _ => rfl

/-- `FailsMap` in terms of a function for the entries -/
def MapRes (g : Ty → Node → Res DeErr DVal) (t : Ty) (es : List (Str × Node)) (s : Stop) (F : Failure) : Prop :=
  (∃ pre k n post u, es = pre ++ (k, n) :: post ∧ entryTy t k = some u ∧
    (∀ p ∈ pre, ∀ u, entryTy t p.1 = some u → ∃ v, g u p.2 = .ok v) ∧ g u n = F.res) ∨
  ((∃ k u, entryTy t k = some u) ∧ (∀ p ∈ es, ∀ u, entryTy t p.1 = some u → ∃ v, g u p.2 = .ok v) ∧ s = F.stop) ∨
  (F = .error .custom ∧ s = .done ∧ (∀ p ∈ es, ∀ u, entryTy t p.1 = some u → ∃ v, g u p.2 = .ok v) ∧
    ∃ fs k t', t = .struct fs ∧ (k, t') ∈ fs ∧ k ∉ es.map Prod.fst ∧ ∀ t'', t' ≠ .option t'') ∨
  (F = .error .custom ∧ ∀ k, entryTy t k = none)

theorem named_split {es : List (CowStr × Node)} {pre post : List (Str × Node)} {k : Str} {n : Node}
    (h : named es = pre ++ (k, n) :: post) : ∃ pre' k' post', es = pre' ++ (k', n) :: post' ∧ named pre' = pre ∧ k'.str = k := by
  unfold named at h
  obtain ⟨l₁, l₂, rfl, h1, h2⟩ := List.map_eq_append_iff.1 h
  obtain ⟨p, l₃, rfl, h3, -⟩ := List.map_eq_cons_iff.1 h2
  cases h3
  exact ⟨l₁, p.1, l₃, rfl, h1, rfl⟩

theorem loop_res {f : Str → Node → Res DeErr DVal} {a : MapAcc} {es : List (CowStr × Node)} {s : Stop} (hD : Drains a es s)
    {F : Failure} : entryLoop f (a.remaining + 1) a = F.res ↔
      (∃ pre k n post, named es = pre ++ (k, n) :: post ∧ (∀ p ∈ pre, ∃ v, f p.1 p.2 = .ok v) ∧ f k n = F.res) ∨
      ((∀ p ∈ named es, ∃ v, f p.1 p.2 = .ok v) ∧ s = F.stop) := by
  rw [entryLoop_eq hD (Nat.lt_succ_self _), runEntries_res]
  constructor
  · rintro (⟨pre, k, n, post, rfl, h1, h2⟩ | ⟨h1, h2⟩)
    · refine .inl ⟨named pre, k.str, n, named post, by simp [named], fun p hp => ?_, h2⟩
      obtain ⟨q, hq, rfl⟩ := List.mem_map.1 hp
      exact h1 q hq
    · refine .inr ⟨fun p hp => ?_, h2⟩
      obtain ⟨q, hq, rfl⟩ := List.mem_map.1 hp
      exact h1 q hq
  · rintro (⟨pre, k, n, post, he, h1, h2⟩ | ⟨h1, h2⟩)
    · obtain ⟨pre', k', post', rfl, rfl, rfl⟩ := named_split he
      exact .inl ⟨pre', k', n, post', rfl, fun p hp => h1 _ (List.mem_map_of_mem hp), h2⟩
    · exact .inr ⟨fun p hp => h1 _ (List.mem_map_of_mem hp), h2⟩

theorem visit_loop {I : F64OfInt} {g : Ty → Node → Res DeErr DVal} {a : MapAcc} :
    (∀ t, visit I g (.map t) a.call = (entryLoop (fun _ => g t) (a.remaining + 1) a).map .entries) ∧
    (∀ fs, visit I g (.struct fs) a.call = (entryLoop (fun k => g ((field? k fs).getD .ignored)) (a.remaining + 1) a).bind
      fun es => (structFields es fs).map .entries) ∧
    (visit I g .ignored a.call = (entryLoop (fun _ => g .ignored) (a.remaining + 1) a).map fun _ => .ignored) ∧
    (visit I g .any a.call = (entryLoop (fun _ => g .any) (a.remaining + 1) a).map .entries) := by
  cases a <;> exact ⟨fun _ => rfl, fun _ => rfl, rfl, rfl⟩

theorem loop_keys {f : Str → Node → Res DeErr DVal} {a : MapAcc} {es : List (CowStr × Node)} {s : Stop} (hD : Drains a es s)
    {vs : List (Str × DVal)} (h : entryLoop f (a.remaining + 1) a = .ok vs) : vs.map Prod.fst = (named es).map Prod.fst := by
  rw [allRel_keys ((entryLoop_ok hD).1 h).2 fun p q h => h.1]
  simp [named]

theorem visit_map_res {I : F64OfInt} {g : Ty → Node → Res DeErr DVal} {t : Ty} {a : MapAcc} {es : List (CowStr × Node)}
    {s : Stop} (hD : Drains a es s) {F : Failure} : visit I g t a.call = F.res ↔ MapRes g t (named es) s F := by
  obtain ⟨v1, v2, v3, v4⟩ := visit_loop (I := I) (g := g) (a := a)
  cases t with
  | any =>
    rw [v4, map_res, loop_res hD]
    simp [MapRes, entryTy]
  | map t =>
    rw [v1, map_res, loop_res hD]
    simp [MapRes, entryTy]
  | ignored =>
    rw [v3, map_res, loop_res hD]
    simp [MapRes, entryTy]
  | struct fs =>
    rw [v2, bind_res, loop_res hD]
    have hu : ∀ l : List (Str × Node), (∀ p ∈ l, ∀ u, entryTy (.struct fs) p.1 = some u → ∃ v, g u p.2 = .ok v) ↔
        ∀ p ∈ l, ∃ v, g ((field? p.1 fs).getD .ignored) p.2 = .ok v := by
      intro l; simp [entryTy]
    simp only [map_res, structFields_res, MapRes, hu]
    constructor
    · rintro ((⟨pre, k, n, post, h1, h2, h3⟩ | ⟨h1, h2⟩) | ⟨vs, h1, rfl, k, t, h2, h3, h4⟩)
      · exact .inl ⟨pre, k, n, post, _, h1, rfl, h2, h3⟩
      · exact .inr (.inl ⟨⟨[], _, rfl⟩, h1, h2⟩)
      · refine .inr (.inr (.inl ⟨rfl, ((entryLoop_ok hD).1 h1).1, fun p hp => ?_, fs, k, t, rfl, h2, ?_, h4⟩))
        · obtain ⟨q, hq, rfl⟩ := List.mem_map.1 hp
          obtain ⟨w, -, -, hw⟩ := ((entryLoop_ok hD).1 h1).2.left hq
          exact ⟨_, hw⟩
        · rw [← loop_keys hD h1]; exact h3
    · rintro (⟨pre, k, n, post, _, h1, h5, h2, h3⟩ | ⟨-, h1, h2⟩ | ⟨rfl, rfl, h1, fs', k, t, he, h2, h3, h4⟩ | ⟨-, h⟩)
      · simp only [entryTy, Option.some.injEq] at h5
        subst h5; exact .inl (.inl ⟨pre, k, n, post, h1, h2, h3⟩)
      · exact .inl (.inr ⟨h1, h2⟩)
      · cases he
        obtain ⟨vs, hvs⟩ := Spec.AllRel.exists_of (as := es)
          (R := fun (p : CowStr × Node) (q : Str × DVal) => q.1 = p.1.str ∧ g ((field? p.1.str fs).getD .ignored) p.2 = .ok q.2) fun p hp => by
            obtain ⟨v, hv⟩ := h1 _ (List.mem_map_of_mem hp)
            exact ⟨(p.1.str, v), rfl, hv⟩
        have := (entryLoop_ok (f := fun k => g ((field? k fs).getD .ignored)) hD).2 ⟨rfl, hvs⟩
        exact .inr ⟨vs, this, rfl, k, t, h2, by rw [loop_keys hD this]; exact h3, h4⟩
      · cases h []
  | _ =>
    cases a <;> simp [visit, MapAcc.call, MapRes, entryTy, error_res]

/-! ## the visits -/

/-- the block types in the order of this hash map -/
def OrderOf (ord : HashOrder) (b : Body) (bs : List (Str × Node)) : Prop :=
  bs = (ord.order (Blocks.new (blocks b))).map fun p => (p.1.str, .block p.2)

theorem named_attrs (l : List (CowStr × Expr)) : named (l.map fun p => (p.1, .expr p.2)) = attrEntries l := by
  simp [named, attrEntries]

theorem attr_names (l : List (CowStr × Expr)) : (attrEntries l).map Prod.fst = l.map fun p => p.1.str := by
  simp [attrEntries]

theorem object_visit (o : List (ObjKey × Expr)) :
    ∃ es s, Drains (.object (.new o)) es s ∧ ObjectVisit o (named es) s := by
  rcases Props.c46_complete o with ⟨l, rfl, hd⟩ | ⟨pre, k, e, post, rfl, hd, hk⟩ | ⟨pre, k, e, post, rfl, hd⟩
  · exact ⟨_, _, Props.c46_entries l hd, by rw [named_attrs]; exact .all l hd⟩
  · exact ⟨_, _, Props.c46_duplicate pre k e post hd hk, by rw [named_attrs]; exact .again pre k e post hd (by rwa [attr_names])⟩
  · exact ⟨_, _, Props.c46_expression_key pre k e post hd, by rw [named_attrs]; exact .expressionKey pre k e post hd⟩

theorem object_visit_drains {o : List (ObjKey × Expr)} {es : List (Str × Node)} {s : Stop} (h : ObjectVisit o es s) :
    ∃ es', Drains (.object (.new o)) es' s ∧ named es' = es := by
  cases h with
  | all l hd => exact ⟨_, Props.c46_entries l hd, named_attrs l⟩
  | again l k e rest hd hk => exact ⟨_, Props.c46_duplicate l k e rest hd (by rwa [attr_names] at hk), named_attrs l⟩
  | expressionKey l k e rest hd => exact ⟨_, Props.c46_expression_key l k e rest hd, named_attrs l⟩

theorem body_visit_drains {ord : HashOrder} {b : Body} {es : List (Str × Node)} {s : Stop} (h : BodyVisit (OrderOf ord) b es s) :
    ∃ es', Drains (.body (.new ord b)) es' s ∧ named es' = es := by
  have hmap : ∀ l : List (CowStr × BlockBody), named (l.map fun p => (p.1, BodyValue.node (.block p.2))) =
      l.map fun p => (p.1.str, .block p.2) := by intro l; simp [named, BodyValue.node]
  have hnodup : ∀ pre : List (CowStr × BlockBody), pre.Sublist (ord.order (Blocks.new (blocks b))) → Distinct (attrs b) →
      (∀ p ∈ pre, p.1.str ∉ (attrEntries (attrs b)).map Prod.fst) →
      (((attrs b).map (fun p => (p.1, BodyValue.expression p.2)) ++ pre.map fun p => (p.1, BodyValue.block p.2)).map
        fun p => p.1.str).Nodup := by
    intro pre hs hd hn
    rw [List.map_append, List.map_map, List.map_map, List.nodup_append]
    refine ⟨hd, ((Props.ordered_nodup ord b).sublist (hs.map _)), fun x hx y hy hxy => ?_⟩
    obtain ⟨p, hp, rfl⟩ := List.mem_map.1 hy
    refine hn p hp ?_
    rw [attr_names]
    rw [show (p.1.str) = x from hxy.symm]
    exact hx
  cases h with
  | all bs hd ho hn =>
    cases ho
    have hn' := hnodup _ (List.Sublist.refl _) hd fun p hp => hn (p.1.str, .block p.2) (List.mem_map.2 ⟨p, hp, rfl⟩)
    have hD := drains_body_done hn'
    refine ⟨_, by rw [BodyMapAccess.new, mapAccessIter, attributesOf_eq, blocksOf_eq]; exact hD, ?_⟩
    simp [named, attrEntries, BodyValue.node, Function.comp_def]
  | again l rest k e hb hd hk =>
    exact ⟨_, Props.c44_duplicate_reported ord b l rest k e hb hd (by rwa [attr_names] at hk), named_attrs l⟩
  | clash bs rest k n hd ho hn hk =>
    unfold OrderOf at ho
    obtain ⟨l₁, l₂, he, h1, h2⟩ := List.map_eq_append_iff.1 ho.symm
    obtain ⟨p, l₃, rfl, h3, -⟩ := List.map_eq_cons_iff.1 h2
    cases h3
    have hn' := hnodup l₁ (by rw [he]; exact List.sublist_append_left _ _) hd fun q hq => hn (q.1.str, .block q.2) (by
      rw [← h1]; exact List.mem_map.2 ⟨q, hq, rfl⟩)
    have hD := drains_body_dup (k := p.1) (x := .block p.2) (post := l₃.map fun p => (p.1, BodyValue.block p.2)) hn' (by
      rw [List.map_append, List.mem_append]
      rw [attr_names] at hk
      refine .inl ?_
      rw [List.map_map]; exact hk)
    refine ⟨_, by rw [BodyMapAccess.new, mapAccessIter, attributesOf_eq, blocksOf_eq, he]; simpa [BodyValue.stop] using hD, ?_⟩
    rw [← h1]
    simp [named, attrEntries, BodyValue.node, Function.comp_def]

theorem body_visit (ord : HashOrder) (b : Body) :
    ∃ es s, Drains (.body (.new ord b)) es s ∧ BodyVisit (OrderOf ord) b (named es) s := by
  have : ∃ es s, BodyVisit (OrderOf ord) b es s := by
    by_cases hd : Distinct (attrs b)
    · let bs := (ord.order (Blocks.new (blocks b))).map fun p => (p.1.str, Node.block p.2)
      by_cases hc : ∀ p ∈ bs, p.1 ∉ (attrEntries (attrs b)).map Prod.fst
      · exact ⟨_, _, .all b bs hd rfl hc⟩
      · have : ∀ l : List (Str × Node), (¬ ∀ p ∈ l, p.1 ∉ (attrEntries (attrs b)).map Prod.fst) →
            ∃ pre k n rest, l = pre ++ (k, n) :: rest ∧ (∀ p ∈ pre, p.1 ∉ (attrEntries (attrs b)).map Prod.fst) ∧
              k ∈ (attrEntries (attrs b)).map Prod.fst := by
          intro l
          induction l with
          | nil => intro h; exact absurd (by simp) h
          | cons q l ih =>
            intro h
            by_cases hq : q.1 ∈ (attrEntries (attrs b)).map Prod.fst
            · exact ⟨[], q.1, q.2, l, rfl, by simp, hq⟩
            · obtain ⟨pre, k, n, rest, rfl, h1, h2⟩ := ih fun h' => h fun p hp => by
                rcases List.mem_cons.1 hp with rfl | hp
                · exact hq
                · exact h' p hp
              refine ⟨q :: pre, k, n, rest, rfl, fun p hp => ?_, h2⟩
              rcases List.mem_cons.1 hp with rfl | hp
              · exact hq
              · exact h1 p hp
        obtain ⟨pre, k, n, rest, h0, h1, h2⟩ := this bs hc
        exact ⟨_, _, .clash b pre rest k n hd h0.symm h1 h2⟩
    · obtain ⟨pre, k, x, post, h1, h2, h3⟩ := exists_first_dup _ hd
      exact ⟨_, _, .again b pre post k x h1 h2 (by rwa [attr_names])⟩
  obtain ⟨es, s, h⟩ := this
  obtain ⟨es', hD, rfl⟩ := body_visit_drains h
  exact ⟨es', s, hD, h⟩

end Verif
