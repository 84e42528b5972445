import Verif.Spec.PlainData
import Verif.Proofs.AlikePlace
import Verif.Props.Reads
/-! # Self-describing values -/
set_option autoImplicit false

namespace Verif
open Spec

variable {P : F64Parse} {I : F64OfInt}

theorem readsAll_rel {t : Ty} {ns : List Node} {vs : List DVal} : ReadsAll P I t ns vs ↔ AllRel (Reads P I t) ns vs := by
  constructor
  · intro h
    induction ns generalizing vs with
    | nil => cases h; exact .nil
    | cons n ns ih => cases h with | cons _ _ _ _ _ h h' => exact .cons _ _ _ _ h (ih h')
  · intro h
    induction h with
    | nil => exact .nil _
    | cons n v ns vs h _ ih => exact .cons _ _ _ _ _ h ih

theorem readsEach_rel {t : Ty} {ns : List (Str × Node)} {vs : List (Str × DVal)} :
    ReadsEach P I t ns vs ↔ AllRel (fun p q => p.1 = q.1 ∧ Reads P I t p.2 q.2) ns vs := by
  constructor
  · intro h
    induction ns generalizing vs with
    | nil => cases h; exact .nil
    | cons n ns ih => cases h with | cons _ _ _ _ _ _ h h' => exact .cons _ _ _ _ ⟨rfl, h⟩ (ih h')
  · intro h
    induction h with
    | nil => exact .nil _
    | cons n v ns vs h _ ih =>
      obtain ⟨k, n⟩ := n
      obtain ⟨k', v⟩ := v
      obtain ⟨rfl, h⟩ := h
      exact .cons _ _ _ _ _ _ h ih

theorem Spec.AllRel.unmap_left {α β γ : Type} {R : β → γ → Prop} {f : α → β} {as : List α} {cs : List γ} (h : AllRel R (as.map f) cs) :
    AllRel (fun a c => R (f a) c) as cs := by
  induction as generalizing cs with
  | nil => cases h; exact .nil
  | cons a as ih => cases h with | cons _ c _ cs h h' => exact .cons _ _ _ _ h (ih h')

theorem Spec.AllRel.to_map_left {α β γ : Type} {R : β → γ → Prop} {f : α → β} {as : List α} {cs : List γ}
    (h : AllRel (fun a c => R (f a) c) as cs) : AllRel R (as.map f) cs := by
  induction h with
  | nil => exact .nil
  | cons a c as cs h _ ih => exact .cons _ _ _ _ h ih

theorem Spec.AllRel.imp_mem {α β : Type} {R S : α → β → Prop} {as : List α} {bs : List β} (h : AllRel R as bs)
    (hi : ∀ a b, a ∈ as → b ∈ bs → R a b → S a b) : AllRel S as bs := by
  induction h with
  | nil => exact .nil
  | cons a b as bs h _ ih =>
    exact .cons _ _ _ _ (hi a b (by simp) (by simp) h) (ih fun a b ha hb => hi a b (by simp [ha]) (by simp [hb]))

theorem allRel_names {α β γ : Type} {R : α → β → Prop} {f : α → γ} {g : β → γ} {as : List α} {bs : List β} (h : AllRel R as bs)
    (hi : ∀ a b, R a b → f a = g b) : as.map f = bs.map g := by
  induction h with
  | nil => rfl
  | cons a b as bs h _ ih => rw [List.map_cons, List.map_cons, hi a b h, ih]

theorem allRel_unique {α β : Type} {R S : α → β → Prop} {as : List α} {bs : List β} (h : AllRel R as bs) :
    ∀ {bs' : List β}, AllRel S as bs' → (∀ a b b', R a b → S a b' → b = b') → bs = bs' := by
  induction h with
  | nil => intro bs' h' _; cases h'; rfl
  | cons a b as bs h _ ih =>
    intro bs' h' hi
    cases h' with
    | cons _ b' _ bs' h1 h2 => rw [hi a b b' h h1, ih h2 hi]

theorem allRel_exists {α β : Type} {R : α → β → Prop} : ∀ {as : List α}, (∀ a ∈ as, ∃ b, R a b) → ∃ bs, AllRel R as bs
  | [], _ => ⟨[], .nil⟩
  | a :: as, h => by
    obtain ⟨b, hb⟩ := h a (by simp)
    obtain ⟨bs, hbs⟩ := allRel_exists (as := as) fun a ha => h a (by simp [ha])
    exact ⟨b :: bs, .cons _ _ _ _ hb hbs⟩

/-! ## the rules for self-describing values are `PlainValue` -/

theorem distinct_size {l : List (CowStr × Expr)} {p : CowStr × Expr} (h : p ∈ l) :
    sizeOf p.2 < sizeOf (Expr.object (l.map fun p => (.ident p.1, p.2))) := by
  have h1 : (ObjKey.ident p.1, p.2) ∈ l.map fun p => (ObjKey.ident p.1, p.2) := List.mem_map.2 ⟨p, h, rfl⟩
  have h2 := List.sizeOf_lt_of_mem h1
  have h3 : sizeOf p.2 < sizeOf (ObjKey.ident p.1, p.2) := by simp; omega
  simp only [Expr.object.sizeOf_spec]; omega

theorem reads_any_plain : ∀ (m : Nat) (e : Expr) (v : DVal), sizeOf e < m → Reads P I .any (.expr e) v → PlainValue P e v := by
  intro m
  induction m with
  | zero => intro e v h; omega
  | succ m ih =>
    intro e v hm h
    cases h with
    | anyNull => exact .null
    | anyBool b => exact .boolean b
    | anyInt n k h => exact .integer n k h
    | anyFloat n x h => exact .float n x h
    | anyString s => exact .string s
    | tuple _ es _ _ _ h =>
      cases h with
      | any _ vs h =>
        have h := (readsAll_rel.1 h).unmap_left
        have h' : AllRel (PlainValue P) es vs := h.imp_mem fun e v he _ hr => ih e v (by
          have := List.sizeOf_lt_of_mem he
          simp only [Expr.tuple.sizeOf_spec] at hm; omega) hr
        exact .tuple es vs h'.length h'.zip
    | object _ o ns _ ho h =>
      obtain ⟨l, rfl, hd, rfl⟩ := ho
      cases h with
      | any _ vs h =>
        have h := (readsEach_rel.1 h).unmap_left
        have h' : AllRel (fun (p : CowStr × Expr) (q : Str × DVal) => p.1.str = q.1 ∧ PlainValue P p.2 q.2) l vs :=
          h.imp_mem fun p q hp _ hr => ⟨hr.1, ih p.2 q.2 (by have := distinct_size hp; omega) hr.2⟩
        exact .object l vs hd (allRel_names h' fun _ _ h => h.1) fun p hp => (h'.zip p hp).2

theorem plain_reads_any {e : Expr} {v : DVal} (h : PlainValue P e v) : Reads P I .any (.expr e) v := by
  induction h with
  | null => exact .anyNull
  | boolean b => exact .anyBool b
  | string s => exact .anyString s
  | integer n k h => exact .anyInt n k h
  | float n x h => exact .anyFloat n x h
  | tuple es vs hl _ ih =>
    exact .tuple _ _ _ (by simp) (by simp) (.any _ _ (readsAll_rel.2 ((AllRel.of_zip hl ih).to_map_left)))
  | object l vs hd hk _ ih =>
    refine .object _ _ _ _ ⟨l, rfl, hd, rfl⟩ (.any _ _ (readsEach_rel.2 (AllRel.to_map_left ?_)))
    have hl : l.length = vs.length := by simpa using congrArg List.length hk
    exact (AllRel.of_map hk).both (AllRel.of_zip (R := fun (p : CowStr × Expr) (q : Str × DVal) => Reads P I .any (.expr p.2) q.2) hl ih)

theorem isInteger_one {n : Number} {k k' : Int} (h : IsInteger n k) (h' : IsInteger n k') : k = k' := by
  have := h.2.symm.trans h'.2; injection this

theorem isFloat_one {n : Number} {x x' : F64} (h : IsFloat P n x) (h' : IsFloat P n x') : x = x' := by
  have := h.2.symm.trans h'.2; injection this

theorem integer_not_float {n : Number} {k : Int} {x : F64} (h : IsInteger n k) (h' : IsFloat P n x) : False := by
  have := h.1.symm.trans h'.1; cases this

theorem plainValue_one {e : Expr} {v v' : DVal} (h : PlainValue P e v) (h' : PlainValue P e v') : v = v' := by
  induction h generalizing v' with
  | null => cases h'; rfl
  | boolean b => cases h'; rfl
  | string s => cases h'; rfl
  | integer n k h =>
    cases h' with
    | integer _ k' h' => rw [isInteger_one h h']
    | float _ x h' => exact (integer_not_float h h').elim
  | float n x h =>
    cases h' with
    | integer _ k' h' => exact (integer_not_float h' h).elim
    | float _ x' h' => rw [isFloat_one h h']
  | tuple es vs hl _ ih =>
    cases h' with
    | tuple _ vs' hl' hz' =>
      have h1 : AllRel (fun e v => ∀ v', PlainValue P e v' → v = v') es vs := AllRel.of_zip hl fun p hp v' h => ih p hp h
      have h2 : AllRel (PlainValue P) es vs' := AllRel.of_zip hl' hz'
      rw [allRel_unique h1 h2 fun a b b' h h' => h b' h']
  | object l vs hd hk _ ih =>
    generalize hz : Expr.object (l.map fun p => (ObjKey.ident p.1, p.2)) = z at h'
    cases h' with
    | object l' vs' hd' hk' hz' =>
      have hll : l = l' := by
        injection hz with hz
        exact List.map_inj_right (by intro a b h; injection h with h1 h2; injection h1 with h1; cases a; cases b; cases h1; cases h2; rfl) |>.1 hz
      subst hll
      have hl : l.length = vs.length := by simpa using congrArg List.length hk
      have hl' : l.length = vs'.length := by simpa using congrArg List.length hk'
      have h1 : AllRel (fun (p : CowStr × Expr) (q : Str × DVal) => p.1.str = q.1 ∧ ∀ v', PlainValue P p.2 v' → q.2 = v') l vs :=
        (AllRel.of_map hk).both (AllRel.of_zip hl fun p hp v' h => ih p hp h)
      have h2 : AllRel (fun (p : CowStr × Expr) (q : Str × DVal) => p.1.str = q.1 ∧ PlainValue P p.2 q.2) l vs' :=
        (AllRel.of_map hk').both (AllRel.of_zip hl' hz')
      rw [allRel_unique h1 h2 fun p q q' h h' => by
        obtain ⟨k, v⟩ := q
        obtain ⟨k', v'⟩ := q'
        have h5 : v = v' := h.2 v' h'.2
        have h6 : k = k' := h.1.symm.trans h'.1
        rw [h5, h6]]
    | _ => cases hz

theorem plain_iff {e : Expr} : PlainData P e ↔ ∃ v, PlainValue P e v := by
  constructor
  · intro h
    induction h with
    | null => exact ⟨_, .null⟩
    | boolean b => exact ⟨_, .boolean b⟩
    | string s => exact ⟨_, .string s⟩
    | integer n k h => exact ⟨_, .integer n k h⟩
    | float n x h => exact ⟨_, .float n x h⟩
    | tuple es _ ih =>
      obtain ⟨vs, h⟩ := allRel_exists ih
      exact ⟨_, .tuple es vs h.length h.zip⟩
    | object l hd _ ih =>
      obtain ⟨vs, h⟩ := allRel_exists (as := l)
        (R := fun (p : CowStr × Expr) (q : Str × DVal) => p.1.str = q.1 ∧ PlainValue P p.2 q.2) fun p hp => by
          obtain ⟨v, hv⟩ := ih p hp
          exact ⟨(p.1.str, v), rfl, hv⟩
      exact ⟨_, .object l vs hd (allRel_names h fun _ _ h => h.1) fun p hp => (h.zip p hp).2⟩
  · rintro ⟨v, h⟩
    induction h with
    | null => exact .null
    | boolean b => exact .boolean b
    | string s => exact .string s
    | integer n k h => exact .integer n k h
    | float n x h => exact .float n x h
    | tuple es vs hl hz ih =>
      refine .tuple es fun e he => ?_
      obtain ⟨v, -, h⟩ := (AllRel.of_zip (R := fun e _ => PlainData P e) hl ih).left he
      exact h
    | object l vs hd hk hz ih =>
      refine .object l hd fun p hp => ?_
      have hl : l.length = vs.length := by simpa using congrArg List.length hk
      obtain ⟨v, -, h⟩ := (AllRel.of_zip (R := fun (p : CowStr × Expr) (_ : Str × DVal) => PlainData P p.2) hl ih).left hp
      exact h

/-! ## data with the same value is alike -/

theorem sameVal_seq_iff {vs : List DVal} {w : DVal} (h : SameVal (.seq vs) w) : ∃ vs', w = .seq vs' ∧ AllRel SameVal vs vs' := by
  cases h with
  | refl => exact ⟨vs, rfl, AllRel.of_zip rfl fun p hp => by
      obtain ⟨i, hi, rfl⟩ := List.mem_iff_getElem.1 hp
      simp only [List.getElem_zip]; exact .refl _⟩
  | seq _ vs' hl hz => exact ⟨vs', rfl, AllRel.of_zip hl hz⟩

theorem plain_alike {e : Expr} {v : DVal} (h : PlainValue P e v) : ∀ {e' : Expr} {v' : DVal}, PlainValue P e' v' → SameVal v v' →
    Alike P false (.expr e) (.expr e') := by
  induction h with
  | null => intro e' v' h' hs; cases hs; cases h'; exact .null
  | boolean b => intro e' v' h' hs; cases hs; cases h'; exact .boolean b
  | string s =>
    intro e' v' h' hs
    cases hs
    generalize hz : DVal.string s.str = z at h'
    cases h' with
    | string s' => injection hz with hz; exact .string s s' hz (by simp)
    | _ => cases hz
  | integer n k h =>
    intro e' v' h' hs
    cases hs
    cases h' with
    | integer n' _ h' =>
      refine .number n n' ⟨fun j => ⟨fun hj => isInteger_one h hj ▸ h', fun hj => isInteger_one h' hj ▸ h⟩,
        fun x => ⟨fun hx => (integer_not_float h hx).elim, fun hx => (integer_not_float h' hx).elim⟩⟩
  | float n x h =>
    intro e' v' h' hs
    cases hs
    cases h' with
    | float n' _ h' =>
      refine .number n n' ⟨fun j => ⟨fun hj => (integer_not_float hj h).elim, fun hj => (integer_not_float hj h').elim⟩,
        fun y => ⟨fun hy => isFloat_one h hy ▸ h', fun hy => isFloat_one h' hy ▸ h⟩⟩
  | tuple es vs hl _ ih =>
    intro e' v' h' hs
    obtain ⟨vs', rfl, hs'⟩ := sameVal_seq_iff hs
    cases h' with
    | tuple es' _ hl' hz' =>
      refine .tuple es es' ?_
      have h1 : AllRel (fun e v => ∀ e' v', PlainValue P e' v' → SameVal v v' → Alike P false (.expr e) (.expr e')) es vs :=
        AllRel.of_zip hl fun p hp e' v' h h' => ih p hp h h'
      have h2 := (AllRel.of_zip (R := PlainValue P) hl' hz').flip
      refine (h1.comp hs' (T := fun e v' => ∀ e', PlainValue P e' v' → Alike P false (.expr e) (.expr e')) ?_).comp h2 ?_
      · intro e v v' _ hh hv e' he'; exact hh e' v' he' hv
      · intro e v' e' _ hh he'; exact hh e' he'
  | object l vs hd hk _ ih =>
    intro e' v' h' hs
    obtain ⟨ws, ws', rfl, hs', hp⟩ := sameVal_entries_iff hs
    cases h' with
    | object l' _ hd' hk' hz' =>
      have hl : l.length = vs.length := by simpa using congrArg List.length hk
      have hl' : l'.length = ws'.length := by simpa using congrArg List.length hk'
      have h1 : AllRel (fun (p : CowStr × Expr) (q : Str × DVal) => p.1.str = q.1 ∧ ∀ e' v', PlainValue P e' v' → SameVal q.2 v' →
          Alike P false (.expr p.2) (.expr e')) l vs :=
        (AllRel.of_map hk).both (AllRel.of_zip hl fun p hp e' v' h h' => ih p hp h h')
      have h2 : AllRel (fun (q : Str × DVal) (p : CowStr × Expr) => p.1.str = q.1 ∧ PlainValue P p.2 q.2) ws' l' :=
        ((AllRel.of_map hk').both (AllRel.of_zip (R := fun (p : CowStr × Expr) (q : Str × DVal) => PlainValue P p.2 q.2) hl' hz')).flip
      obtain ⟨l'', h3, h4⟩ := AllRel.perm hp.symm h2
      have h5 : AllRel (fun (p p' : CowStr × Expr) => p.1.str = p'.1.str ∧ Alike P false (.expr p.2) (.expr p'.2)) l l'' := by
        refine (h1.comp hs' (T := fun (p : CowStr × Expr) (q : Str × DVal) => p.1.str = q.1 ∧ ∀ e', PlainValue P e' q.2 →
          Alike P false (.expr p.2) (.expr e')) ?_).comp h3 ?_
        · intro p q q' _ hh hv; exact ⟨hh.1.trans hv.1, fun e' he' => hh.2 e' q'.2 he' hv.2⟩
        · intro p q p' _ hh hv; exact ⟨hh.1.trans hv.1.symm, hh.2 _ hv.2⟩
      refine .object _ (l''.map fun p => (.ident p.1, p.2)) _ ?_ ?_ (h4.symm.map _)
      · rw [List.map_map, List.map_map]
        exact allRel_names h5 fun p p' h => by simp [forgetKey, forgetStr, h.1]
      · exact h5.map fun p p' h => h.2

end Verif
