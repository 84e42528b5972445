import Verif.Spec.EditRead
import Verif.Spec.Reads
import Verif.Proofs.Alike
/-!
# A value at one place of a tree, and the value read from the tree
-/
set_option autoImplicit false

namespace Verif
open Spec

variable {P : F64Parse} {I : F64OfInt}

/-- Places one inside the other. -/
def ReadPlace.comp : ReadPlace → ReadPlace → ReadPlace
  | .here, q => q
  | .fixed v, _ => .fixed v
  | .some p, q => .some (comp p q)
  | .item b p a, q => .item b (comp p q) a
  | .entry b k p a, q => .entry b k (comp p q) a

theorem ReadPlace.fill_comp : ∀ (p q : ReadPlace) (w : DVal), (ReadPlace.comp p q).fill w = p.fill (q.fill w)
  | .here, _, _ => rfl
  | .fixed _, _, _ => rfl
  | .some p, q, w => by simp only [ReadPlace.comp, Spec.ReadPlace.fill, fill_comp p q w]
  | .item _ p _, q, w => by simp only [ReadPlace.comp, Spec.ReadPlace.fill, fill_comp p q w]
  | .entry _ _ p _, q, w => by simp only [ReadPlace.comp, Spec.ReadPlace.fill, fill_comp p q w]

/-- Read as this type, or not read at all. -/
def ReadAs (P : F64Parse) (I : F64OfInt) : Option Ty → Expr → DVal → Prop
  | none, _, w => w = .unit
  | some t, e, w => Reads P I t (.expr e) w

/-- `Q e v`: the tree with `e` at the place is read as `v`. There is one type as which the place is read, and one place in the
result for what is read. -/
def Deep (P : F64Parse) (I : F64OfInt) (Q : Expr → DVal → Prop) (e : Expr) (v : DVal) : Prop :=
  ∃ (c : ReadPlace) (r : Option Ty), (∀ t, r = some t → ProperTy t) ∧ (∃ w, ReadAs P I r e w ∧ v = c.fill w) ∧
    ∀ e', (∀ w', ReadAs P I r e' w' → Q e' (c.fill w')) ∧ ((∃ v', Q e' v') → ∃ w', ReadAs P I r e' w')

theorem deep_step {Q Q' : Expr → DVal → Prop} {e : Expr} {v w : DVal} (k : ReadPlace) (h : Deep P I Q' e w) (hv : v = k.fill w)
    (h1 : ∀ e' w, Q' e' w → Q e' (k.fill w)) (h2 : ∀ e' v', Q e' v' → ∃ w, Q' e' w) : Deep P I Q e v := by
  obtain ⟨c, r, hr, ⟨u, hu, rfl⟩, hc⟩ := h
  refine ⟨ReadPlace.comp k c, r, hr, ⟨u, hu, by rw [hv, ReadPlace.fill_comp]⟩, fun e' => ⟨fun w' hw' => ?_, ?_⟩⟩
  · rw [ReadPlace.fill_comp]
    exact h1 _ _ ((hc e').1 w' hw')
  · rintro ⟨v', hv'⟩
    exact (hc e').2 (h2 e' v' hv')

theorem deep_unread {Q : Expr → DVal → Prop} {e : Expr} {v : DVal} (h : ∀ e', Q e' v) : Deep P I Q e v :=
  ⟨.fixed v, none, (fun _ h => nomatch h), ⟨.unit, rfl, rfl⟩, fun e' => ⟨fun _ _ => h e', fun _ => ⟨.unit, rfl⟩⟩⟩

/-- Lists that differ in one place. -/
theorem allRel_one {α : Type} {R : α → α → Prop} (hr : ∀ a, R a a) {x y : α} (h : R x y) : ∀ (l r : List α),
    AllRel R (l ++ x :: r) (l ++ y :: r) := by
  have refl : ∀ l : List α, AllRel R l l := fun l => by
    induction l with
    | nil => exact .nil
    | cons a l ih => exact .cons _ _ _ _ (hr a) ih
  intro l r
  induction l with
  | nil => exact .cons _ _ _ _ h (refl r)
  | cons a l ih => exact .cons _ _ _ _ (hr a) ih

theorem allRel_forall_eq {α : Type} {R : α → α → Prop} : ∀ {l r : List α}, AllRel R l r → (∀ a ∈ l, ∀ b, R a b → a = b) → l = r
  | _, _, .nil, _ => rfl
  | _, _, .cons a b l r h h', hq => by
    rw [hq a (List.mem_cons_self ..) b h, allRel_forall_eq h' fun a ha => hq a (List.mem_cons_of_mem _ ha)]

/-- The attributes and blocks of two bodies that differ in the value at one place. -/
theorem fill_rel (p : ValuePlace) (e e' : Expr) :
    AllRel (fun a a' : CowStr × Expr => a.1 = a'.1 ∧ (a.1.str ≠ p.place.name → a = a')) (attrs (p.fill e)) (attrs (p.fill e')) ∧
    AllRel (fun q q' : Block => q.type.str = q'.type.str ∧ (q.type.str ≠ p.place.name → q = q')) (blocks (p.fill e)) (blocks (p.fill e')) := by
  obtain ⟨before, place, after⟩ := p
  have ha : ∀ x : BodyElement, attrs (before ++ x :: after) = attrs before ++ (attrs [x] ++ attrs after) := fun x => by
    simp only [attrs, List.filterMap_append, ← List.filterMap_append (l := [x]), List.singleton_append]
  have hb : ∀ x : BodyElement, blocks (before ++ x :: after) = blocks before ++ (blocks [x] ++ blocks after) := fun x => by
    simp only [blocks, List.filterMap_append, ← List.filterMap_append (l := [x]), List.singleton_append]
  have refl1 : ∀ l : List (CowStr × Expr), AllRel (fun a a' : CowStr × Expr => a.1 = a'.1 ∧ (a.1.str ≠ place.name → a = a')) l l := fun l => by
    induction l with
    | nil => exact .nil
    | cons a l ih => exact .cons _ _ _ _ ⟨rfl, fun _ => rfl⟩ ih
  have refl2 : ∀ l : List Block, AllRel (fun q q' : Block => q.type.str = q'.type.str ∧ (q.type.str ≠ place.name → q = q')) l l := fun l => by
    induction l with
    | nil => exact .nil
    | cons a l ih => exact .cons _ _ _ _ ⟨rfl, fun _ => rfl⟩ ih
  simp only [ValuePlace.fill, ha, hb]
  cases place with
  | «attribute» k p =>
    exact ⟨allRel_one (fun a => ⟨rfl, fun _ => rfl⟩) ⟨rfl, fun h => absurd rfl h⟩ _ _, refl2 _⟩
  | block i ls b p a =>
    exact ⟨refl1 _, allRel_one (fun a => ⟨rfl, fun _ => rfl⟩) ⟨rfl, fun h => absurd rfl h⟩ _ _⟩

theorem entry_mono (p : ValuePlace) (e e' : Expr) {j : Str} (hj : j ≠ p.place.name) {n : Node}
    (h : EntryOf (p.fill e) j n) : EntryOf (p.fill e') j n := by
  obtain ⟨h1, h2⟩ := fill_rel p e e'
  rcases h with ⟨k, x, hm, rfl, rfl⟩ | ⟨run, hr, rfl⟩
  · obtain ⟨q, hq, -, h4⟩ := h1.left hm
    exact .inl ⟨k, x, h4 hj ▸ hq, rfl, rfl⟩
  · obtain ⟨run', hr', h3⟩ := lastRun_alike (fun _ _ h => h.1) h2 hr
    have : run = run' := allRel_forall_eq h3 fun a ha b hab => hab.2 (by rw [hr.choose_spec.choose_spec.2.2.1 a ha]; exact hj)
    subst this
    exact .inr ⟨run, hr', rfl⟩

theorem entry_same (p : ValuePlace) (e e' : Expr) (j : Str) (hj : j ≠ p.place.name) (n : Node) :
    EntryOf (p.fill e) j n ↔ EntryOf (p.fill e') j n := ⟨entry_mono p e e' hj, entry_mono p e' e hj⟩

/-- The names of the entries are the same. -/
theorem names_mono (p : ValuePlace) (e e' : Expr) {j : Str} (h : ∃ n, EntryOf (p.fill e) j n) :
    ∃ n, EntryOf (p.fill e') j n := by
  obtain ⟨h1, h2⟩ := fill_rel p e e'
  rcases h with ⟨_, ⟨k, x, hm, rfl, rfl⟩ | ⟨run, hr, rfl⟩⟩
  · obtain ⟨⟨k', x'⟩, hq, h3, -⟩ := h1.left hm
    cases h3
    exact ⟨_, .inl ⟨_, x', hq, rfl, rfl⟩⟩
  · obtain ⟨run', hr', -⟩ := lastRun_alike (fun _ _ h => h.1) h2 hr
    exact ⟨_, .inr ⟨run', hr', rfl⟩⟩

theorem keys_same {R : CowStr × Expr → CowStr × Expr → Prop} (hR : ∀ a b, R a b → a.1 = b.1) :
    ∀ {l r : List (CowStr × Expr)}, AllRel R l r → l.map (fun p => p.1.str) = r.map fun p => p.1.str
  | _, _, .nil => rfl
  | _, _, .cons a b l r h h' => by simp only [List.map_cons, hR a b h, keys_same hR h']

theorem distinct_mono (p : ValuePlace) (e e' : Expr) (h : Distinct (attrs (p.fill e))) : Distinct (attrs (p.fill e')) := by
  unfold Distinct at *
  rwa [← keys_same (fun _ _ h => h.1) (fill_rel p e e').1]

theorem clash_mono (p : ValuePlace) (e e' : Expr) (h : NameClash (p.fill e)) : NameClash (p.fill e') := by
  obtain ⟨h1, h2⟩ := fill_rel p e e'
  obtain ⟨a, ha, q, hq, hc⟩ := h
  obtain ⟨a', ha', h3, -⟩ := h1.left ha
  obtain ⟨q', hq', h4, -⟩ := h2.left hq
  exact ⟨a', ha', q', hq', by rw [← h3, ← h4]; exact hc⟩


/-! ## lists with one changing element -/

theorem readsAll_one {t : Ty} {n : Node} : ∀ {L R : List Node} {vs : List DVal}, ReadsAll P I t (L ++ n :: R) vs →
    ∃ a w b, vs = a ++ w :: b ∧ Reads P I t n w ∧ ∀ n' w', Reads P I t n' w' → ReadsAll P I t (L ++ n' :: R) (a ++ w' :: b)
  | [], R, _, h => by
    cases h with
    | cons _ _ w _ vs h h' => exact ⟨[], w, vs, rfl, h, fun n' w' hw => .cons _ _ _ _ _ hw h'⟩
  | m :: L, R, _, h => by
    cases h with
    | cons _ _ x _ vs h h' =>
      obtain ⟨a, w, b, rfl, h1, h2⟩ := readsAll_one h'
      exact ⟨x :: a, w, b, rfl, h1, fun n' w' hw => .cons _ _ _ _ _ h (h2 n' w' hw)⟩

/-- the fields of a tuple, one of which may be at the place; more elements may follow -/
theorem readsFields_one {n : Node} : ∀ {L R ms rest : List Node} {ts : List Ty} {vs : List DVal}, ReadsFields P I ts ms vs →
    ms ++ rest = L ++ n :: R →
    (∀ n', ∃ ms' rest', ms' ++ rest' = L ++ n' :: R ∧ ReadsFields P I ts ms' vs) ∨
    ∃ a w b t, vs = a ++ w :: b ∧ t ∈ ts ∧ a.length = L.length ∧ Reads P I t n w ∧
      (∀ n' w', Reads P I t n' w' → ∃ ms' rest', ms' ++ rest' = L ++ n' :: R ∧ ReadsFields P I ts ms' (a ++ w' :: b)) ∧
      ∀ n' ms' rest' vs', ms' ++ rest' = L ++ n' :: R → ReadsFields P I ts ms' vs' → ∃ w', Reads P I t n' w'
  | L, R, _, rest, _, _, .nil, e => .inl fun n' => ⟨[], L ++ n' :: R, rfl, .nil⟩
  | [], R, _, rest, _, _, .cons t m v ts ms vs h h', e => by
    rw [List.cons_append, List.nil_append, List.cons.injEq] at e
    obtain ⟨rfl, rfl⟩ := e
    refine .inr ⟨[], v, vs, t, rfl, List.mem_cons_self .., rfl, h, fun n' w' hw => ⟨n' :: ms, rest, rfl, .cons _ _ _ _ _ _ hw h'⟩,
      fun n' ms' rest' vs' he hr => ?_⟩
    cases hr with
    | cons _ m' v' _ ms' vs' h1 h2 =>
      rw [List.cons_append, List.nil_append, List.cons.injEq] at he
      exact ⟨v', he.1 ▸ h1⟩
  | l :: L, R, _, rest, _, _, .cons t m v ts ms vs h h', e => by
    rw [List.cons_append, List.cons_append, List.cons.injEq] at e
    obtain ⟨rfl, e⟩ := e
    rcases readsFields_one h' e with h1 | ⟨a, w, b, t', rfl, h1, h2, h3, h4, h5⟩
    · left
      intro n'
      obtain ⟨ms', rest', h2, h3⟩ := h1 n'
      exact ⟨m :: ms', rest', by rw [List.cons_append, h2, List.cons_append], .cons _ _ _ _ _ _ h h3⟩
    · refine .inr ⟨v :: a, w, b, t', rfl, List.mem_cons_of_mem _ h1, by simp [h2], h3, fun n' w' hw => ?_, fun n' ms' rest' vs' he hr => ?_⟩
      · obtain ⟨ms', rest', h6, h7⟩ := h4 n' w' hw
        exact ⟨m :: ms', rest', by rw [List.cons_append, h6, List.cons_append], .cons _ _ _ _ _ _ h h7⟩
      · cases hr with
        | cons _ m' v' _ ms' vs' h6 h7 =>
          rw [List.cons_append, List.cons_append, List.cons.injEq] at he
          exact h5 n' ms' rest' _ he.2 h7

theorem properTy_mem {t : Ty} {ts : List Ty} (h : ProperTy (.tuple ts) ∨ ProperTy (.tupleStruct ts)) (ht : t ∈ ts) : ProperTy t := by
  rcases h with h | h
  · cases h with
    | tuple _ h => exact h t ht
  · cases h with
    | tupleStruct _ h => exact h t ht

/-- A sequence with the place in one element. -/
theorem deep_seq {M : Expr → Node} {e : Expr} (ih : ∀ t w, ProperTy t → Reads P I t (M e) w → Deep P I (fun y v => Reads P I t (M y) v) e w)
    {L R : List Node} {t : Ty} {v : DVal} (ht : ProperTy t) (h : ReadsSeq P I t (L ++ M e :: R) v) :
    Deep P I (fun y v => ReadsSeq P I t (L ++ M y :: R) v) e v := by
  generalize hz : L ++ M e :: R = ns at h
  cases h with
  | seq t _ vs h =>
    subst hz
    obtain ⟨a, w, b, rfl, h1, h2⟩ := readsAll_one h
    have hp : ProperTy t := by cases ht; assumption
    refine deep_step (.item a .here b) (ih t w hp h1) rfl (fun e' w hw => .seq _ _ _ (h2 _ _ hw)) fun e' v' hv' => ?_
    cases hv' with
    | seq _ _ vs' h' =>
      obtain ⟨_, w, _, _, h3, _⟩ := readsAll_one h'
      exact ⟨w, h3⟩
  | tuple ts ms rest vs h =>
    rcases readsFields_one h hz.symm with h1 | ⟨a, w, b, t', rfl, h1, h2, h3, h4, h5⟩
    · refine deep_unread fun e' => ?_
      obtain ⟨ms', rest', h2, h3⟩ := h1 (M e')
      simp only [← h2]
      exact .tuple _ _ _ _ h3
    · refine deep_step (.item a .here b) (ih t' w (properTy_mem (.inl ht) h1) h3) rfl (fun e' w hw => ?_) fun e' v' hv' => ?_
      · obtain ⟨ms', rest', h6, h7⟩ := h4 _ w hw
        simp only [← h6]
        exact .tuple _ _ _ _ h7
      · generalize hz' : L ++ M e' :: R = ns' at hv'
        cases hv' with
        | tuple _ ms' rest' vs' h' => exact h5 _ _ _ _ hz'.symm h'
  | tupleStruct ts ms rest vs h =>
    rcases readsFields_one h hz.symm with h1 | ⟨a, w, b, t', rfl, h1, h2, h3, h4, h5⟩
    · refine deep_unread fun e' => ?_
      obtain ⟨ms', rest', h2, h3⟩ := h1 (M e')
      simp only [← h2]
      exact .tupleStruct _ _ _ _ h3
    · refine deep_step (.item a .here b) (ih t' w (properTy_mem (.inr ht) h1) h3) rfl (fun e' w hw => ?_) fun e' v' hv' => ?_
      · obtain ⟨ms', rest', h6, h7⟩ := h4 _ w hw
        simp only [← h6]
        exact .tupleStruct _ _ _ _ h7
      · generalize hz' : L ++ M e' :: R = ns' at hv'
        cases hv' with
        | tupleStruct _ ms' rest' vs' h' => exact h5 _ _ _ _ hz'.symm h'
  | struct fs ms rest vs h =>
    rcases readsFields_one h hz.symm with h1 | ⟨a, w, b, t', rfl, h1, h2, h3, h4, h5⟩
    · refine deep_unread fun e' => ?_
      obtain ⟨ms', rest', h2, h3⟩ := h1 (M e')
      simp only [← h2]
      exact .struct _ _ _ _ h3
    · have hp : ProperTy t' := by
        cases ht with
        | struct _ _ hf =>
          obtain ⟨f, hf', rfl⟩ := List.mem_map.1 h1
          exact hf f hf'
      have hl : ∀ {ts : List Ty} {ms : List Node} {vs : List DVal}, ReadsFields P I ts ms vs → ts.length = vs.length := by
        intro ts ms vs h
        induction ts generalizing ms vs with
        | nil => cases h; rfl
        | cons t ts ih => cases h with
          | cons _ _ _ _ _ _ _ h' => simp [ih h']
      have hl := hl h
      simp only [List.length_map, List.length_append, List.length_cons] at hl
      obtain ⟨fa, k, fb, hk1, hk2⟩ : ∃ fa k fb, fs.map Prod.fst = fa ++ k :: fb ∧ fa.length = a.length := by
        have h6 : a.length < (fs.map Prod.fst).length := by simp; omega
        refine ⟨(fs.map Prod.fst).take a.length, (fs.map Prod.fst)[a.length], (fs.map Prod.fst).drop (a.length + 1), ?_, ?_⟩
        · rw [List.getElem_cons_drop, List.take_append_drop]
        · rw [List.length_take]; omega
      have hzip : ∀ w, (fs.map Prod.fst).zip (a ++ w :: b) = fa.zip a ++ (k, w) :: fb.zip b := fun w => by
        rw [hk1, List.zip_append hk2, List.zip_cons_cons]
      rw [hzip]
      refine deep_step (.entry (fa.zip a) k .here (fb.zip b)) (ih t' w hp h3) rfl (fun e' w hw => ?_) fun e' v' hv' => ?_
      · obtain ⟨ms', rest', h6, h7⟩ := h4 _ w hw
        have := ReadsSeq.struct fs ms' rest' _ h7
        rw [hzip, h6] at this
        exact this
      · generalize hz' : L ++ M e' :: R = ns' at hv'
        cases hv' with
        | struct _ ms' rest' vs' h' => exact h5 _ _ _ _ hz'.symm h'
  | newtype t n rest v h =>
    have hp : ProperTy t := by cases ht; assumption
    cases L with
    | nil =>
      rw [List.nil_append, List.cons.injEq] at hz
      obtain ⟨rfl, rfl⟩ := hz
      refine deep_step .here (ih t v hp h) rfl (fun e' w hw => .newtype _ _ _ _ hw) fun e' v' hv' => ?_
      cases hv' with
      | newtype _ _ _ _ h' => exact ⟨_, h'⟩
    | cons l L =>
      rw [List.cons_append, List.cons.injEq] at hz
      obtain ⟨rfl, -⟩ := hz
      exact deep_unread fun e' => .newtype _ _ _ _ h
  | ignored _ vs h =>
    subst hz
    obtain ⟨a, w, b, rfl, h1, h2⟩ := readsAll_one h
    refine deep_step (.fixed .ignored) (ih .ignored w .ignored h1) rfl (fun e' w hw => .ignored _ _ (h2 _ _ hw)) fun e' v' hv' => ?_
    cases hv' with
    | ignored _ vs' h' =>
      obtain ⟨_, w, _, _, h3, _⟩ := readsAll_one h'
      exact ⟨w, h3⟩
  | any _ vs h =>
    subst hz
    obtain ⟨a, w, b, rfl, h1, h2⟩ := readsAll_one h
    refine deep_step (.item a .here b) (ih .any w .any h1) rfl (fun e' w hw => .any _ _ (h2 _ _ hw)) fun e' v' hv' => ?_
    cases hv' with
    | any _ vs' h' =>
      obtain ⟨_, w, _, _, h3, _⟩ := readsAll_one h'
      exact ⟨w, h3⟩
  | bytes u _ vs h =>
    subst hz
    obtain ⟨a, w, b, rfl, h1, h2⟩ := readsAll_one h
    refine deep_step (.item a .here b) (ih _ w (.int _) h1) rfl (fun e' w hw => .bytes _ _ _ (h2 _ _ hw)) fun e' v' hv' => ?_
    cases hv' with
    | bytes _ _ vs' h' =>
      obtain ⟨_, w, _, _, h3, _⟩ := readsAll_one h'
      exact ⟨w, h3⟩

/-! ## entries of which one changes -/

theorem readsEach_one {t : Ty} {k : Str} {n : Node} : ∀ {A B : List (Str × Node)} {vs : List (Str × DVal)}, ReadsEach P I t (A ++ (k, n) :: B) vs →
    ∃ a w b, vs = a ++ (k, w) :: b ∧ Reads P I t n w ∧ ∀ n' w', Reads P I t n' w' → ReadsEach P I t (A ++ (k, n') :: B) (a ++ (k, w') :: b)
  | [], _, _, h => by
    cases h with
    | cons _ _ _ w _ vs h h' => exact ⟨[], w, vs, rfl, h, fun n' w' hw => .cons _ _ _ _ _ _ hw h'⟩
  | (j, m) :: A, _, _, h => by
    cases h with
    | cons _ _ _ x _ vs h h' =>
      obtain ⟨a, w, b, rfl, h1, h2⟩ := readsEach_one h'
      exact ⟨(j, x) :: a, w, b, rfl, h1, fun n' w' hw => .cons _ _ _ _ _ _ h (h2 n' w' hw)⟩

theorem other_entry {A B : List (Str × Node)} {j k : Str} {m n n' : Node} (h : j ≠ k) (hm : (j, m) ∈ A ++ (k, n) :: B) :
    (j, m) ∈ A ++ (k, n') :: B := by
  rcases List.mem_append.1 hm with hm | hm
  · simp [hm]
  · rcases List.mem_cons.1 hm with hm | hm
    · exact absurd (congrArg Prod.fst hm) h
    · simp [hm]

theorem same_names (A B : List (Str × Node)) (k : Str) (n n' : Node) :
    (A ++ (k, n) :: B).map Prod.fst = (A ++ (k, n') :: B).map Prod.fst := by simp

theorem readsStruct_other {A B : List (Str × Node)} {k : Str} {n n' : Node} : ∀ {fs : List (Str × Ty)} {vs : List (Str × DVal)},
    k ∉ fs.map Prod.fst → ReadsStruct P I fs (A ++ (k, n) :: B) vs → ReadsStruct P I fs (A ++ (k, n') :: B) vs
  | [], _, _, h => by cases h; exact .nil _
  | (j, t) :: fs, _, hk, h => by
    rw [List.map_cons, List.mem_cons] at hk
    cases h with
    | present _ _ m v _ _ vs h1 h2 h3 =>
      exact .present _ _ m v _ _ _ (other_entry (fun e => hk (.inl e.symm)) h1) h2 (readsStruct_other (fun h => hk (.inr h)) h3)
    | absent _ t _ _ vs h1 h2 =>
      exact .absent _ _ _ _ _ (by rwa [same_names A B k n' n]) (readsStruct_other (fun h => hk (.inr h)) h2)

theorem readsStruct_one {A B : List (Str × Node)} {k : Str} {n : Node} (hu : ∀ m, (k, m) ∈ A ++ (k, n) :: B → m = n) :
    ∀ {fs : List (Str × Ty)} {vs : List (Str × DVal)}, (fs.map Prod.fst).Nodup → k ∈ fs.map Prod.fst →
    ReadsStruct P I fs (A ++ (k, n) :: B) vs →
    ∃ a w b t, vs = a ++ (k, w) :: b ∧ (k, t) ∈ fs ∧ Reads P I t n w ∧
      ∀ n' w', Reads P I t n' w' → ReadsStruct P I fs (A ++ (k, n') :: B) (a ++ (k, w') :: b)
  | [], _, _, hk, _ => absurd hk (List.not_mem_nil)
  | (j, t) :: fs, _, hd, hk, h => by
    rw [List.map_cons, List.nodup_cons] at hd
    by_cases hj : j = k
    · subst hj
      cases h with
      | present _ _ m v _ _ vs h1 h2 h3 =>
        obtain rfl := hu m h1
        exact ⟨[], v, vs, t, rfl, List.mem_cons_self .., h2, fun n' w' hw => .present _ _ n' _ _ _ _ (by simp) hw (readsStruct_other hd.1 h3)⟩
      | absent _ t _ _ vs h1 h2 => exact absurd (by simp) h1
    · have hk' : k ∈ fs.map Prod.fst := by
        rcases List.mem_cons.1 hk with h | h
        · exact absurd h.symm hj
        · exact h
      cases h with
      | present _ _ m v _ _ vs h1 h2 h3 =>
        obtain ⟨a, w, b, t', rfl, h4, h5, h6⟩ := readsStruct_one hu hd.2 hk' h3
        exact ⟨(j, v) :: a, w, b, t', rfl, List.mem_cons_of_mem _ h4, h5,
          fun n' w' hw => .present _ _ m _ _ _ _ (other_entry hj h1) h2 (h6 n' w' hw)⟩
      | absent _ t _ _ vs h1 h2 =>
        obtain ⟨a, w, b, t', rfl, h4, h5, h6⟩ := readsStruct_one hu hd.2 hk' h2
        exact ⟨(j, .none) :: a, w, b, t', rfl, List.mem_cons_of_mem _ h4, h5,
          fun n' w' hw => .absent _ _ _ _ _ (by rwa [same_names A B k n' n]) (h6 n' w' hw)⟩

theorem readsStruct_field {ns : List (Str × Node)} {k : Str} {n : Node} {t : Ty} (hn : (k, n) ∈ ns) (hu : ∀ m, (k, m) ∈ ns → m = n) :
    ∀ {fs : List (Str × Ty)} {vs : List (Str × DVal)}, (k, t) ∈ fs → ReadsStruct P I fs ns vs → ∃ w, Reads P I t n w
  | [], _, hk, _ => absurd hk (List.not_mem_nil)
  | (j, t') :: fs, _, hk, h => by
    rcases List.mem_cons.1 hk with hk' | hk'
    · cases hk'
      cases h with
      | present _ _ m v _ _ vs h1 h2 h3 => exact ⟨v, hu m h1 ▸ h2⟩
      | absent _ t _ _ vs h1 h2 => exact absurd (List.mem_map.2 ⟨_, hn, rfl⟩) h1
    · cases h with
      | present _ _ m v _ _ vs h1 h2 h3 => exact readsStruct_field hn hu hk' h3
      | absent _ t _ _ vs h1 h2 => exact readsStruct_field hn hu hk' h2

theorem readsExtra_mem {fs : List (Str × Ty)} : ∀ {ns : List (Str × Node)}, ReadsExtra P I fs ns →
    ∀ k n, (k, n) ∈ ns → k ∉ fs.map Prod.fst → ∃ v, Reads P I .ignored n v
  | _, .nil _, _, _, h, _ => absurd h (List.not_mem_nil)
  | _, .declared _ j m ns hj h, k, n, hm, hk => by
    rcases List.mem_cons.1 hm with e | hm
    · cases e; exact absurd hj hk
    · exact readsExtra_mem h k n hm hk
  | _, .extra _ j m v ns hj hv h, k, n, hm, hk => by
    rcases List.mem_cons.1 hm with e | hm
    · cases e; exact ⟨v, hv⟩
    · exact readsExtra_mem h k n hm hk

theorem nodup_entry {A B : List (Str × Node)} {k : Str} {n : Node} (h : ((A ++ (k, n) :: B).map Prod.fst).Nodup) (m : Node)
    (hm : (k, m) ∈ A ++ (k, n) :: B) : m = n := by
  have := nodup_key h hm (b := (k, n)) (by simp) rfl
  exact congrArg Prod.snd this

/-- Entries with the place in one of them. -/
theorem deep_map {M : Expr → Node} {e : Expr} (ih : ∀ t w, ProperTy t → Reads P I t (M e) w → Deep P I (fun y v => Reads P I t (M y) v) e w)
    {A B : List (Str × Node)} {k : Str} (hd : ∀ y, ((A ++ (k, M y) :: B).map Prod.fst).Nodup) {t : Ty} {v : DVal} (ht : ProperTy t)
    (h : ReadsMap P I t (A ++ (k, M e) :: B) v) : Deep P I (fun y v => ReadsMap P I t (A ++ (k, M y) :: B) v) e v := by
  cases h with
  | map t _ vs h =>
    obtain ⟨a, w, b, rfl, h1, h2⟩ := readsEach_one h
    have hp : ProperTy t := by cases ht; assumption
    refine deep_step (.entry a k .here b) (ih t w hp h1) rfl (fun e' w hw => .map _ _ _ (h2 _ _ hw)) fun e' v' hv' => ?_
    cases hv' with
    | map _ _ vs' h' =>
      obtain ⟨_, w, _, _, h3, _⟩ := readsEach_one h'
      exact ⟨w, h3⟩
  | ignored _ vs h =>
    obtain ⟨a, w, b, rfl, h1, h2⟩ := readsEach_one h
    refine deep_step (.fixed .ignored) (ih .ignored w .ignored h1) rfl (fun e' w hw => .ignored _ _ (h2 _ _ hw)) fun e' v' hv' => ?_
    cases hv' with
    | ignored _ vs' h' =>
      obtain ⟨_, w, _, _, h3, _⟩ := readsEach_one h'
      exact ⟨w, h3⟩
  | any _ vs h =>
    obtain ⟨a, w, b, rfl, h1, h2⟩ := readsEach_one h
    refine deep_step (.entry a k .here b) (ih .any w .any h1) rfl (fun e' w hw => .any _ _ (h2 _ _ hw)) fun e' v' hv' => ?_
    cases hv' with
    | any _ vs' h' =>
      obtain ⟨_, w, _, _, h3, _⟩ := readsEach_one h'
      exact ⟨w, h3⟩
  | struct fs _ vs h hx =>
    obtain ⟨hf, hp⟩ : (fs.map Prod.fst).Nodup ∧ ∀ f ∈ fs, ProperTy f.2 := by
      cases ht with
      | struct _ h1 h2 => exact ⟨h1, h2⟩
    by_cases hk : k ∈ fs.map Prod.fst
    · obtain ⟨a, w, b, t, rfl, h1, h2, h3⟩ := readsStruct_one (fun m hm => nodup_entry (hd e) m hm) hf hk h
      refine deep_step (.entry a k .here b) (ih t w (hp _ h1) h2) rfl (fun e' w hw => .struct _ _ _ (h3 _ _ hw) ?_) fun e' v' hv' => ?_
      · refine readsExtra_of fun j n hm hj => ?_
        exact readsExtra_mem hx j n (other_entry (fun e => hj (e ▸ hk)) hm) hj
      · cases hv' with
        | struct _ _ vs' h' _ => exact readsStruct_field (by simp) (fun m hm => nodup_entry (hd e') m hm) h1 h'
    · obtain ⟨w, hw⟩ := readsExtra_mem hx k (M e) (by simp) hk
      refine deep_step (.fixed (.entries vs)) (ih .ignored w .ignored hw) rfl (fun e' w hw => .struct _ _ _ (readsStruct_other hk h) ?_) fun e' v' hv' => ?_
      · refine readsExtra_of fun j n hm hj => ?_
        by_cases hjk : j = k
        · subst hjk
          rw [nodup_entry (hd e') n hm]
          exact ⟨w, hw⟩
        · exact readsExtra_mem hx j n (other_entry hjk hm) hj
      · cases hv' with
        | struct _ _ vs' _ hx' => exact readsExtra_mem hx' k (M e') (by simp) hk

theorem readsMap_perm {t : Ty} {ns ns' : List (Str × Node)} {v : DVal} (hp : ns.Perm ns') (h : ReadsMap P I t ns v) :
    ∃ v', ReadsMap P I t ns' v' := by
  cases h with
  | map t _ vs h =>
    obtain ⟨vs', h1, -⟩ := readsEach_perm hp h
    exact ⟨_, .map _ _ _ h1⟩
  | ignored _ vs h =>
    obtain ⟨vs', h1, -⟩ := readsEach_perm hp h
    exact ⟨_, .ignored _ _ h1⟩
  | any _ vs h =>
    obtain ⟨vs', h1, -⟩ := readsEach_perm hp h
    exact ⟨_, .any _ _ h1⟩
  | struct fs _ vs h hx =>
    have : ∀ {fs : List (Str × Ty)} {vs : List (Str × DVal)}, ReadsStruct P I fs ns vs → ReadsStruct P I fs ns' vs := by
      intro fs
      induction fs with
      | nil => intro vs h; cases h; exact .nil _
      | cons f fs ih =>
        intro vs h
        cases h with
        | present _ _ m v _ _ vs h1 h2 h3 => exact .present _ _ m v _ _ _ (hp.mem_iff.1 h1) h2 (ih h3)
        | absent _ t _ _ vs h1 h2 => exact .absent _ _ _ _ _ (fun h => h1 ((hp.map _).mem_iff.2 h)) (ih h2)
    exact ⟨_, .struct _ _ _ (this h) (readsExtra_of fun k n hm hk => readsExtra_mem hx k n (hp.mem_iff.2 hm) hk)⟩

theorem objectEntries_unique {o : List (ObjKey × Expr)} {ns ns' : List (Str × Node)} (h : ObjectEntries o ns) (h' : ObjectEntries o ns') :
    ns = ns' := by
  obtain ⟨l, rfl, -, rfl⟩ := h
  obtain ⟨l', e, -, rfl⟩ := h'
  have : l = l' := (List.map_inj_right (fun p q h => by
    obtain ⟨p1, p2⟩ := p; obtain ⟨q1, q2⟩ := q
    simp only [Prod.mk.injEq, ObjKey.ident.injEq] at h
    rw [h.1, h.2])).1 e
  rw [this]

/-! ## expressions -/

theorem readsSeq_kind {t : Ty} {ns : List Node} {v : DVal} (h : ReadsSeq P I t ns v) : ∀ t', t ≠ .option t' := by
  cases h <;> (intro t' e; cases e)

/-- An expression with the place inside. -/
theorem deep_expr (e : Expr) : ∀ (p : ExprPlace) (t : Ty) (v : DVal), ProperTy t → Reads P I t (.expr (p.fill e)) v →
    Deep P I (fun y v => Reads P I t (.expr (p.fill y)) v) e v := by
  intro p
  induction p with
  | here =>
    intro t v ht h
    exact ⟨.here, some t, fun t' h => by cases h; exact ht, ⟨v, h, rfl⟩, fun e' => ⟨fun w' hw => hw, fun h => h⟩⟩
  | item before p after ihp =>
    intro t
    induction hn : sizeOf t using Nat.strongRecOn generalizing t with
    | _ n iht =>
    subst hn
    intro v ht h
    have hne : ∀ y, ExprPlace.fill (.item before p after) y ≠ .null := fun y h => by cases h
    generalize hz : ExprPlace.fill (.item before p after) e = x at h
    cases h with
    | some t _ v _ h =>
      subst hz
      have hp : ProperTy t := by cases ht; assumption
      refine deep_step (.some .here) (iht (sizeOf t) (by simp) t rfl v hp h) rfl (fun e' w hw => .some _ _ _ (hne e') hw) fun e' v' hv' => ?_
      generalize hz' : ExprPlace.fill (.item before p after) e' = x' at hv'
      cases hv' with
      | some _ _ w _ h' => exact ⟨w, hz' ▸ h'⟩
      | none => exact absurd hz' (hne e')
      | tuple _ _ _ _ _ h' => exact absurd rfl (readsSeq_kind h' _)
      | object _ _ _ _ _ h' => cases h'
    | newtype t _ v h =>
      subst hz
      have hp : ProperTy t := by cases ht; assumption
      refine deep_step .here (iht (sizeOf t) (by simp) t rfl v hp h) rfl (fun e' w hw => .newtype _ _ _ hw) fun e' v' hv' => ?_
      generalize hz' : ExprPlace.fill (.item before p after) e' = x' at hv'
      cases hv' with
      | newtype _ _ w h' => subst hz'; exact ⟨_, h'⟩
      | tuple _ _ _ _ hn _ => exact absurd rfl (hn _)
      | object _ _ _ _ _ h' => cases h'
    | tuple _ es v hl hn h =>
      simp only [ExprPlace.fill, Expr.tuple.injEq] at hz
      subst hz
      rw [List.map_append, List.map_cons] at h
      have hd := deep_seq (M := fun y => .expr (p.fill y)) (fun t w ht h => ihp t w ht h) ht h
      refine deep_step .here hd rfl (fun e' w hw => .tuple _ _ _ (fun ts hts => ?_) hn ?_) fun e' v' hv' => ?_
      · rw [← hl ts hts]; simp
      · rw [List.map_append, List.map_cons]; exact hw
      · simp only [ExprPlace.fill] at hv'
        cases hv' with
        | tuple _ _ _ _ _ h' => rw [List.map_append, List.map_cons] at h'; exact ⟨_, h'⟩
        | some => exact absurd rfl (readsSeq_kind h _)
        | newtype => exact absurd rfl (hn _)
    | object => cases hz
    | _ => cases hz
  | value before k p after ihp =>
    intro t
    induction hn : sizeOf t using Nat.strongRecOn generalizing t with
    | _ n iht =>
    subst hn
    intro v ht h
    have hne : ∀ y, ExprPlace.fill (.value before k p after) y ≠ .null := fun y h => by cases h
    generalize hz : ExprPlace.fill (.value before k p after) e = x at h
    cases h with
    | some t _ v _ h =>
      subst hz
      have hp : ProperTy t := by cases ht; assumption
      refine deep_step (.some .here) (iht (sizeOf t) (by simp) t rfl v hp h) rfl (fun e' w hw => .some _ _ _ (hne e') hw) fun e' v' hv' => ?_
      generalize hz' : ExprPlace.fill (.value before k p after) e' = x' at hv'
      cases hv' with
      | some _ _ w _ h' => exact ⟨w, hz' ▸ h'⟩
      | none => exact absurd hz' (hne e')
      | tuple _ _ _ _ _ h' => exact absurd rfl (readsSeq_kind h' _)
      | object _ _ _ _ _ h' => cases h'
    | newtype t _ v h =>
      subst hz
      have hp : ProperTy t := by cases ht; assumption
      refine deep_step .here (iht (sizeOf t) (by simp) t rfl v hp h) rfl (fun e' w hw => .newtype _ _ _ hw) fun e' v' hv' => ?_
      generalize hz' : ExprPlace.fill (.value before k p after) e' = x' at hv'
      cases hv' with
      | newtype _ _ w h' => subst hz'; exact ⟨_, h'⟩
      | tuple _ _ _ _ hn _ => exact absurd rfl (hn _)
      | object _ _ _ _ _ h' => cases h'
    | object _ o ns v he h =>
      simp only [ExprPlace.fill, Expr.object.injEq] at hz
      subst hz
      obtain ⟨l, ho, hl, rfl⟩ := he
      obtain ⟨a, r, rfl, h1, h2⟩ := List.map_eq_append_iff.1 ho.symm
      cases r with
      | nil => cases h2
      | cons x b =>
      obtain ⟨j, x⟩ := x
      rw [List.map_cons, List.cons.injEq, Prod.mk.injEq] at h2
      obtain ⟨⟨rfl, rfl⟩, rfl⟩ := h2
      subst h1
      have hd : ∀ y, Distinct (a ++ (j, ExprPlace.fill p y) :: b) := fun y => by
        unfold Distinct at *
        simpa using hl
      have entries : ∀ y, ObjectEntries (a.map (fun p : CowStr × Expr => (ObjKey.ident p.1, p.2)) ++ (.ident j, p.fill y) ::
          b.map (fun p : CowStr × Expr => (ObjKey.ident p.1, p.2)))
          (a.map (fun p : CowStr × Expr => (p.1.str, Node.expr p.2)) ++ (j.str, .expr (p.fill y)) ::
            b.map (fun p : CowStr × Expr => (p.1.str, Node.expr p.2))) := fun y =>
        ⟨a ++ (j, p.fill y) :: b, by simp, hd y, by simp⟩
      rw [List.map_append, List.map_cons] at h
      have hdeep := deep_map (M := fun y => .expr (p.fill y)) (fun t w ht h => ihp t w ht h) (fun y => by
        have := hd y
        unfold Distinct at this
        simpa [Function.comp_def] using this) ht h
      refine deep_step .here hdeep rfl (fun e' w hw => .object _ _ _ _ (entries e') hw) fun e' v' hv' => ?_
      simp only [ExprPlace.fill] at hv'
      cases hv' with
      | object _ _ ns' _ he' h' =>
        have : ns' = _ := objectEntries_unique he' (entries e')
        exact ⟨_, this ▸ h'⟩
      | some => cases h
      | newtype => cases h
    | _ => cases hz

/-! ## blocks and bodies -/

theorem run_at_front (t : Str) : ∀ bs : List Block, ∃ run post, bs = run ++ post ∧ (∀ b ∈ run, b.type.str = t) ∧
    ∀ b, post.head? = some b → b.type.str ≠ t
  | [] => ⟨[], [], rfl, by simp, by simp⟩
  | b :: bs => by
    by_cases hb : b.type.str = t
    · obtain ⟨run, post, rfl, h1, h2⟩ := run_at_front t bs
      exact ⟨b :: run, post, rfl, by simpa using ⟨hb, h1⟩, h2⟩
    · exact ⟨[], b :: bs, rfl, by simp, by simpa using hb⟩

/-- A block among others is in the last run of its type, or that run comes after it. -/
theorem run_place (i : CowStr) (ls : List BlockLabel) (L R : List Block) :
    (∃ A Z, ∀ x, LastRun i.str (L ++ ⟨i, ls, x⟩ :: R) (A ++ ⟨i, ls, x⟩ :: Z)) ∨
      ∃ run, ∀ x, LastRun i.str (L ++ ⟨i, ls, x⟩ :: R) run := by
  obtain ⟨Z, R', rfl, hZ, hR⟩ := run_at_front i.str R
  by_cases h : ∃ q ∈ R', q.type.str = i.str
  · right
    obtain ⟨run, pre, post, rfl, h1, h2, h3, h4⟩ := lastRun_of_mem h
    refine ⟨run, fun x => ⟨L ++ ⟨i, ls, x⟩ :: Z ++ pre, post, by simp, h1, h2, h3, fun b hb => ?_⟩⟩
    cases pre with
    | nil =>
      cases run with
      | nil => exact absurd rfl h1
      | cons q run => exact absurd (h2 q (List.mem_cons_self ..)) (hR q (by simp))
    | cons q pre =>
      rw [List.getLast?_append] at hb
      rw [List.getLast?_eq_some_getLast (List.cons_ne_nil q pre), Option.or] at hb
      exact h4 b (by rw [List.getLast?_eq_some_getLast (List.cons_ne_nil q pre)]; exact hb)
  · left
    obtain ⟨pre, A, rfl, hA, hpre⟩ := run_at_end i.str L
    refine ⟨A, Z, fun x => ⟨pre, R', by simp, by simp, fun b hb => ?_, fun b hb e => h ⟨b, hb, e⟩, hpre⟩⟩
    rcases List.mem_append.1 hb with hb | hb
    · exact hA b hb
    · rcases List.mem_cons.1 hb with rfl | hb
      · rfl
      · exact hZ b hb

theorem unlabelled_body {bs bs' : List Body} (h : Unlabelled (.body bs) bs') : bs' = bs := by cases h; rfl

/-- The blocks of one type, with the place in one of them. -/
theorem deep_block {e : Expr} {x : Expr → Body} (ih : ∀ t w, ProperTy t → Reads P I t (.body (x e)) w →
      Deep P I (fun y v => Reads P I t (.body (x y)) v) e w) (ls : List BlockLabel) (L R : List (List BlockLabel × Body)) :
    ∀ (t : Ty) (v : DVal), ProperTy t → Reads P I t (.block (.fromIter (L ++ (ls, x e) :: R))) v →
      Deep P I (fun y v => Reads P I t (.block (.fromIter (L ++ (ls, x y) :: R))) v) e v := by
  intro t
  induction hn : sizeOf t using Nat.strongRecOn generalizing t with
  | _ n iht =>
  subst hn
  intro v ht h
  have plain : ∀ {bs : List Body}, Unlabelled (BlockBody.fromIter (L ++ (ls, x e) :: R)) bs → ∃ L' R' : List Body,
      bs = L' ++ x e :: R' ∧ ∀ y, BlockBody.fromIter (L ++ (ls, x y) :: R) = .body (L' ++ x y :: R') := by
    intro bs hu
    obtain ⟨L', r, rfl, h1, h2⟩ := List.map_eq_append_iff.1 (unlabelled_fromIter hu).symm
    cases r with
    | nil => cases h2
    | cons b R' =>
      rw [List.map_cons, List.cons.injEq, Prod.mk.injEq] at h2
      obtain ⟨⟨rfl, rfl⟩, rfl⟩ := h2
      refine ⟨L', R', rfl, fun y => ?_⟩
      rw [← fromIter_plain, ← h1]
      simp
  generalize hc : BlockBody.fromIter (L ++ (ls, x e) :: R) = c at h
  cases h with
  | block _ _ b v hu hs h =>
    rw [← hc] at hu
    obtain ⟨L', R', hb, hy⟩ := plain hu
    have hl : L'.length + R'.length = 0 := by
      have := congrArg List.length hb
      simp at this
      omega
    obtain rfl : L' = [] := List.length_eq_zero_iff.1 (by omega)
    obtain rfl : R' = [] := List.length_eq_zero_iff.1 (by omega)
    obtain rfl : b = x e := by simpa using hb
    simp only [hy]
    refine deep_step .here (ih t v ht h) rfl (fun e' w hw => .block _ _ _ _ (.body _) hs hw) fun e' v' hv' => ?_
    generalize hc' : BlockBody.body ([] ++ x e' :: []) = c' at hv'
    cases hv' with
    | block _ _ b' _ hu' _ h' =>
      rw [← hc'] at hu'
      have := unlabelled_body hu'
      simp only [List.nil_append, List.cons.injEq, and_true] at this
      exact ⟨_, this ▸ h'⟩
    | blocks _ _ bs _ hu' hl' _ _ =>
      rw [← hc'] at hu'
      obtain rfl := unlabelled_body hu'
      rcases hl' with hl' | ⟨t', rfl⟩
      · exact absurd rfl hl'
      · exact absurd rfl (hs _)
    | someBlock => cases h with
      | body _ _ _ _ _ hm => cases hm
    | noBlock => cases h with
      | body _ _ _ _ _ hm => cases hm
  | blocks _ _ bs v hu hl hr h =>
    rw [← hc] at hu
    obtain ⟨L', R', rfl, hy⟩ := plain hu
    simp only [hy]
    rw [List.map_append, List.map_cons] at h
    have hd := deep_seq (M := fun y => .body (x y)) (fun t w ht h => ih t w ht h) ht h
    refine deep_step .here hd rfl (fun e' w hw => .blocks _ _ _ _ (.body _) ?_ ?_ ?_) fun e' v' hv' => ?_
    · simpa using hl
    · rintro ⟨-, b, m, hm⟩; cases hm
    · rw [List.map_append, List.map_cons]; exact hw
    · generalize hc' : BlockBody.body (L' ++ x e' :: R') = c' at hv'
      cases hv' with
      | block _ _ b' _ hu' hs' h' =>
        rw [← hc'] at hu'
        have := congrArg List.length (unlabelled_body hu')
        rcases hl with hl | ⟨t', rfl⟩
        · simp at this hl
          omega
        · exact absurd rfl (hs' _)
      | blocks _ _ bs _ hu' _ _ h' =>
        rw [← hc'] at hu'
        obtain rfl := unlabelled_body hu'
        rw [List.map_append, List.map_cons] at h'
        exact ⟨_, h'⟩
      | someBlock => exact absurd rfl (readsSeq_kind h _)
      | noBlock => exact absurd rfl (readsSeq_kind h _)
  | someBlock t _ v hl h =>
    subst hc
    have hp : ProperTy t := by cases ht; assumption
    refine deep_step (.some .here) (iht (sizeOf t) (by simp) t rfl v hp h) rfl (fun e' w hw => .someBlock _ _ _ ?_ hw) fun e' v' hv' => ?_
    · rw [lenBlocks_fromIter]; simp
    · generalize hc' : BlockBody.fromIter (L ++ (ls, x e') :: R) = c' at hv'
      cases hv' with
      | someBlock _ _ w _ h' => exact ⟨w, hc' ▸ h'⟩
      | noBlock _ _ hl' => rw [← hc', lenBlocks_fromIter] at hl'; simp at hl'
      | block _ _ _ _ _ _ h' => cases h' with
        | body _ _ _ _ _ hm => cases hm
      | blocks _ _ _ _ _ _ _ h' => exact absurd rfl (readsSeq_kind h' _)
  | noBlock t _ hl =>
    rw [← hc, lenBlocks_fromIter] at hl
    simp at hl

/-- A body with the place in the entry of this name. -/
theorem deep_entry {e : Expr} (p : ValuePlace) {M : Expr → Node} (hM : ∀ y, EntryOf (p.fill y) p.place.name (M y))
    (ih : ∀ t w, ProperTy t → Reads P I t (M e) w → Deep P I (fun y v => Reads P I t (M y) v) e w) (t : Ty) (v : DVal)
    (ht : ProperTy t) (h : Reads P I t (.body (p.fill e)) v) : Deep P I (fun y v => Reads P I t (.body (p.fill y)) v) e v := by
  cases h with
  | body _ _ ns v he h =>
    obtain ⟨hd, hc, hn, hm⟩ := he
    obtain ⟨A, B, rfl⟩ := List.append_of_mem ((hm _ _).2 (hM e))
    have hd' : ∀ y, ((A ++ (p.place.name, M y) :: B).map Prod.fst).Nodup := fun y => by
      rw [same_names A B _ (M y) (M e)]; exact hn
    have entries : ∀ y, BodyEntries (p.fill y) (A ++ (p.place.name, M y) :: B) := fun y => by
      have hdy := distinct_mono p e y hd
      have hcy : ¬ NameClash (p.fill y) := fun h => hc (clash_mono p y e h)
      refine ⟨hdy, hcy, hd' y, fun j n => ?_⟩
      by_cases hj : j = p.place.name
      · subst hj
        exact ⟨fun h => nodup_entry (hd' y) n h ▸ hM y, fun h => by rw [entry_unique hdy hcy h (hM y)]; simp⟩
      · rw [entry_same p y e j hj, ← hm]
        exact ⟨other_entry hj, other_entry hj⟩
    refine deep_step .here (deep_map ih hd' ht h) rfl (fun e' w hw => .body _ _ _ _ (entries e') hw) fun e' v' hv' => ?_
    cases hv' with
    | body _ _ ns' _ he' h' =>
      refine readsMap_perm ?_ h'
      refine (List.perm_ext_iff_of_nodup ?_ ?_).2 fun q => ?_
      · exact List.Pairwise.of_map Prod.fst (fun a b hab h => hab (h ▸ rfl)) he'.2.2.1
      · exact List.Pairwise.of_map Prod.fst (fun a b hab h => hab (h ▸ rfl)) (hd' e')
      · rw [he'.2.2.2 q.1 q.2, (entries e').2.2.2 q.1 q.2]

/-- A body with the place inside. -/
theorem deep_body (e : Expr) : ∀ (q : ElementPlace) (before after : Body) (t : Ty) (v : DVal), ProperTy t →
    Reads P I t (.body (before ++ q.fill e :: after)) v →
    Deep P I (fun y v => Reads P I t (.body (before ++ q.fill y :: after)) v) e v := by
  intro q
  induction q with
  | «attribute» k p =>
    intro before after t v ht h
    refine deep_entry ⟨before, .attribute k p, after⟩ (M := fun y => .expr (p.fill y)) (fun y => ?_)
      (fun t w ht h => deep_expr e p t w ht h) t v ht h
    exact .inl ⟨k, p.fill y, by simp [attrs, ValuePlace.fill, ElementPlace.fill], rfl, rfl⟩
  | block i ls b q a ihq =>
    intro before after t v ht h
    have hb : ∀ y, blocks (before ++ (ElementPlace.block i ls b q a).fill y :: after) =
        blocks before ++ ⟨i, ls, b ++ q.fill y :: a⟩ :: blocks after := fun y => by
      simp [blocks, ElementPlace.fill]
    rcases run_place i ls (blocks before) (blocks after) with ⟨A, Z, hr⟩ | ⟨run, hr⟩
    · refine deep_entry ⟨before, .block i ls b q a, after⟩
        (M := fun y => .block (.fromIter (A.map (fun q => (q.labels, q.body)) ++ (ls, b ++ q.fill y :: a) :: Z.map fun q => (q.labels, q.body))))
        (fun y => ?_) (deep_block (x := fun y => b ++ q.fill y :: a) (fun t w ht h => ihq b a t w ht h) ls _ _) t v ht h
      exact .inr ⟨_, by rw [ValuePlace.fill, hb]; exact hr _, by simp⟩
    · refine deep_entry ⟨before, .block i ls b q a, after⟩ (M := fun _ => .block (.fromIter (run.map fun q => (q.labels, q.body))))
        (fun y => .inr ⟨run, by rw [ValuePlace.fill, hb]; exact hr _, rfl⟩) (fun t w ht h => deep_unread fun _ => h) t v ht h

end Verif
