import Verif.Spec.Reads
import Verif.Proofs.DeOrder
/-! # `deserialize` computes the relation `Reads` -/
set_option autoImplicit false

namespace Verif
open Spec

variable {P : F64Parse} {I : F64OfInt}

/-! ## deserialized values are read -/

theorem all_sound {g : Node → Res DeErr DVal} {t : Ty} : ∀ {ns : List Node} {vs : List DVal},
    (∀ n ∈ ns, ∀ w, g n = .ok w → Reads P I t n w) → deAll g ns = .ok vs → ReadsAll P I t ns vs
  | [], vs, _, h => by cases h; exact .nil _
  | n :: ns, vs, hg, h => by
    obtain ⟨v, h1, h2⟩ := bind_ok.1 h
    obtain ⟨vs', h3, rfl⟩ := map_ok.1 h2
    exact .cons _ _ _ _ _ (hg n (by simp) v h1) (all_sound (fun m hm => hg m (by simp [hm])) h3)

theorem fields_sound {f : Ty → Node → Res DeErr DVal} : ∀ {ts : List Ty} {ns : List Node} {vs : List DVal},
    (∀ t ∈ ts, ∀ n ∈ ns, ∀ w, f t n = .ok w → Reads P I t n w) → deFields f ts ns = .ok vs →
      ∃ ns' rest, ns = ns' ++ rest ∧ ReadsFields P I ts ns' vs
  | [], ns, vs, _, h => by cases h; exact ⟨[], ns, rfl, .nil⟩
  | _ :: _, [], vs, _, h => by cases h
  | t :: ts, n :: ns, vs, hg, h => by
    obtain ⟨v, h1, h2⟩ := bind_ok.1 h
    obtain ⟨vs', h3, rfl⟩ := map_ok.1 h2
    obtain ⟨ns', rest, rfl, h4⟩ := fields_sound (fun t' ht m hm => hg t' (by simp [ht]) m (by simp [hm])) h3
    exact ⟨n :: ns', rest, rfl, .cons _ _ _ _ _ _ (hg t (by simp) n (by simp) v h1) h4⟩

theorem seq_sound {f : Ty → Node → Res DeErr DVal} {t : Ty} {ns : List Node} {v : DVal} (hp : ProperTy t)
    (hf : ∀ t' n w, n ∈ ns → sizeOf t' ≤ sizeOf t → ProperTy t' → f t' n = .ok w → Reads P I t' n w)
    (h : visit I f t (.seq ns) = .ok v) : ReadsSeq P I t ns v := by
  cases t with
  | seq t =>
    obtain ⟨vs, h1, rfl⟩ := map_ok.1 h
    cases hp with
    | seq _ hp => exact .seq _ _ _ (all_sound (fun n hn w hw => hf t n w hn (by simp) hp hw) h1)
  | tuple ts =>
    obtain ⟨vs, h1, rfl⟩ := map_ok.1 h
    cases hp with
    | tuple _ hp =>
      obtain ⟨ns', rest, rfl, h2⟩ := fields_sound (fun t ht n hn w hw => hf t n w hn (by
        have := List.sizeOf_lt_of_mem ht
        simp only [Ty.tuple.sizeOf_spec]; omega) (hp t ht) hw) h1
      exact .tuple _ _ _ _ h2
  | tupleStruct ts =>
    obtain ⟨vs, h1, rfl⟩ := map_ok.1 h
    cases hp with
    | tupleStruct _ hp =>
      obtain ⟨ns', rest, rfl, h2⟩ := fields_sound (fun t ht n hn w hw => hf t n w hn (by
        have := List.sizeOf_lt_of_mem ht
        simp only [Ty.tupleStruct.sizeOf_spec]; omega) (hp t ht) hw) h1
      exact .tupleStruct _ _ _ _ h2
  | struct fs =>
    obtain ⟨vs, h1, rfl⟩ := map_ok.1 h
    cases hp with
    | struct _ _ hp =>
      obtain ⟨ns', rest, rfl, h2⟩ := fields_sound (fun t ht n hn w hw => hf t n w hn (by
        obtain ⟨p, hp', rfl⟩ := List.mem_map.1 ht
        have := List.sizeOf_lt_of_mem hp'
        have hp2 : sizeOf p.2 < sizeOf p := by cases p; simp; omega
        simp only [Ty.struct.sizeOf_spec]; omega) (by
          obtain ⟨p, hp', rfl⟩ := List.mem_map.1 ht
          exact hp p hp') hw) h1
      exact .struct _ _ _ _ h2
  | newtype t =>
    cases ns with
    | nil => cases h
    | cons n ns =>
      cases hp with
      | newtype _ hp => exact .newtype _ _ _ _ (hf t n v (by simp) (by simp) hp h)
  | ignored =>
    obtain ⟨vs, h1, rfl⟩ := map_ok.1 h
    exact .ignored _ _ (all_sound (fun n hn w hw => hf .ignored n w hn (by simp) hp hw) h1)
  | any =>
    obtain ⟨vs, h1, rfl⟩ := map_ok.1 h
    exact .any _ _ (all_sound (fun n hn w hw => hf .any n w hn (by simp) hp hw) h1)
  | bytes u =>
    obtain ⟨vs, h1, rfl⟩ := map_ok.1 h
    refine .bytes _ _ _ ?_
    rw [← u.isU8]
    exact all_sound (fun n hn w hw => hf (.int u.ty) n w hn (sizeOf_u8 u) (.int _) hw) h1
  | _ => cases h

/-- the call that hands over a map access -/
def MapAcc.call : MapAcc → Call
  | .object a => .mapObject a
  | .body a => .mapBody a

/-- the names and nodes of drained entries -/
def named (es : List (CowStr × Node)) : List (Str × Node) := es.map fun p => (p.1.str, p.2)

private theorem nodup_map_unique {α β : Type} {f : α → β} {l : List α} (h : (l.map f).Nodup) :
    ∀ p ∈ l, ∀ p' ∈ l, f p = f p' → p = p' := by
  induction l with
  | nil => intro p hp; cases hp
  | cons a l ih =>
    rw [List.map_cons, List.nodup_cons] at h
    intro p hp p' hp' hf
    cases hp with
    | head =>
      cases hp' with
      | head => rfl
      | tail _ hp' => exact absurd (List.mem_map.2 ⟨p', hp', hf.symm⟩) h.1
    | tail _ hp =>
      cases hp' with
      | head => exact absurd (List.mem_map.2 ⟨p, hp, hf⟩) h.1
      | tail _ hp' => exact ih h.2 p hp p' hp' hf

/-- the loop of a derived struct over drained entries -/
theorem struct_entries_ok {g : Ty → Node → Res DeErr DVal} {es : List (CowStr × Node)} {fs : List (Str × Ty)}
    (hn : (es.map fun p => p.1.str).Nodup) (hfs : (fs.map Prod.fst).Nodup) {vs : List (Str × DVal)} :
    (∃ found, AllRel (fun p q => q.1 = p.1.str ∧ g ((field? p.1.str fs).getD .ignored) p.2 = .ok q.2) es found ∧
      structFields found fs = .ok vs) ↔
    AllRel (fun f q => q.1 = f.1 ∧ ((∃ p ∈ es, p.1.str = f.1 ∧ g f.2 p.2 = .ok q.2) ∨
        ((∀ p ∈ es, p.1.str ≠ f.1) ∧ (∃ t, f.2 = .option t) ∧ q.2 = .none))) fs vs ∧
      ∀ p ∈ es, p.1.str ∉ fs.map Prod.fst → ∃ w, g .ignored p.2 = .ok w := by
  constructor
  · rintro ⟨found, h1, h2⟩
    have hkeys := allRel_keys h1 fun p q h => h.1
    refine ⟨(structFields_ok.1 h2).imp fun f q hf _ ⟨hq1, hq2⟩ => ⟨hq1, ?_⟩, fun p hp hkn => ?_⟩
    · rcases hq2 with hq2 | ⟨hq2, ht, hv⟩
      · have hm := field?_mem hq2
        obtain ⟨p, hp, h3, h4⟩ := h1.right hm
        dsimp only at h3 h4
        have : field? p.1.str fs = some f.2 := by rw [← h3]; exact field?_of_mem hf hfs
        rw [this] at h4
        exact .inl ⟨p, hp, h3.symm, h4⟩
      · refine .inr ⟨fun p hp h3 => ?_, ht, hv⟩
        have := field?_none.1 hq2
        rw [hkeys] at this
        exact this (List.mem_map.2 ⟨p, hp, h3⟩)
    · obtain ⟨q, -, -, h4⟩ := h1.left hp
      rw [field?_none.2 hkn] at h4
      exact ⟨q.2, h4⟩
  · rintro ⟨h1, h2⟩
    have huniq := nodup_map_unique (f := fun p : CowStr × Node => p.1.str) hn
    obtain ⟨found, hfound⟩ := AllRel.exists_of (as := es)
      (R := fun (p : CowStr × Node) (q : Str × DVal) => q.1 = p.1.str ∧ g ((field? p.1.str fs).getD .ignored) p.2 = .ok q.2) (by
        intro p hp
        cases hf : field? p.1.str fs with
        | none =>
          obtain ⟨w, hw⟩ := h2 p hp (field?_none.1 hf)
          exact ⟨(p.1.str, w), rfl, hw⟩
        | some t =>
          obtain ⟨q, -, -, h3⟩ := h1.left (field?_mem hf)
          rcases h3 with ⟨p', hp', h4, hq⟩ | ⟨hno, -⟩
          · have := huniq p hp p' hp' h4.symm
            subst this
            exact ⟨(p.1.str, q.2), rfl, hq⟩
          · exact absurd rfl (hno p hp))
    have hkeys := allRel_keys hfound fun p q h => h.1
    have hfn : (found.map Prod.fst).Nodup := by rw [hkeys]; exact hn
    refine ⟨found, hfound, structFields_ok.2 (h1.imp fun f q hf _ ⟨hq1, hq2⟩ => ⟨hq1, ?_⟩)⟩
    rcases hq2 with ⟨p, hp, h4, hq⟩ | ⟨hno, ht, hv⟩
    · obtain ⟨r, hr, h5, h6⟩ := hfound.left hp
      rw [h4, field?_of_mem hf hfs] at h6
      have : r.2 = q.2 := by
        have h7 := h6.symm.trans hq
        injection h7
      left
      rw [← this, ← h4, ← h5]
      exact field?_of_mem hr hfn
    · right
      refine ⟨field?_none.2 fun hm => ?_, ht, hv⟩
      rw [hkeys] at hm
      obtain ⟨p, hp, h4⟩ := List.mem_map.1 hm
      exact hno p hp h4

theorem each_sound {g : Node → Res DeErr DVal} {t : Ty} : ∀ {es : List (CowStr × Node)} {vs : List (Str × DVal)},
    (∀ p ∈ es, ∀ w, g p.2 = .ok w → Reads P I t p.2 w) → AllRel (fun p q => q.1 = p.1.str ∧ g p.2 = .ok q.2) es vs →
      ReadsEach P I t (named es) vs
  | [], _, _, .nil => .nil _
  | p :: es, _, hg, .cons _ q _ vs h1 h2 => by
    obtain ⟨k, v⟩ := q
    obtain ⟨h1, h3⟩ := h1
    dsimp only at h1 h3
    subst h1
    exact .cons _ _ _ _ _ _ (hg p (by simp) _ h3) (each_sound (fun q hq => hg q (by simp [hq])) h2)

theorem fieldsOf_sound {g : Ty → Node → Res DeErr DVal} {es : List (CowStr × Node)} :
    ∀ {fs : List (Str × Ty)} {vs : List (Str × DVal)},
    (∀ f ∈ fs, ∀ p ∈ es, ∀ w, g f.2 p.2 = .ok w → Reads P I f.2 p.2 w) →
    AllRel (fun f q => q.1 = f.1 ∧ ((∃ p ∈ es, p.1.str = f.1 ∧ g f.2 p.2 = .ok q.2) ∨
        ((∀ p ∈ es, p.1.str ≠ f.1) ∧ (∃ t, f.2 = .option t) ∧ q.2 = .none))) fs vs →
      ReadsStruct P I fs (named es) vs
  | [], _, _, .nil => .nil _
  | (k, t) :: fs, _, hg, .cons _ q _ vs h1 h2 => by
    obtain ⟨k', v⟩ := q
    obtain ⟨h1, h3⟩ := h1
    dsimp only at h1 h3
    subst h1
    have ih := fieldsOf_sound (fun f hf => hg f (by simp [hf])) h2
    rcases h3 with ⟨p, hp, h4, h5⟩ | ⟨hno, ⟨t', rfl⟩, rfl⟩
    · exact .present _ _ p.2 _ _ _ _ (List.mem_map.2 ⟨p, hp, by rw [h4]⟩) (hg (k', t) (by simp) p hp _ h5) ih
    · refine .absent _ _ _ _ _ (fun hm => ?_) ih
      rw [named, List.map_map] at hm
      obtain ⟨p, hp, h4⟩ := List.mem_map.1 hm
      exact hno p hp h4

theorem extra_sound {g : Node → Res DeErr DVal} {fs : List (Str × Ty)} : ∀ {es : List (CowStr × Node)},
    (∀ p ∈ es, ∀ w, g p.2 = .ok w → Reads P I .ignored p.2 w) →
    (∀ p ∈ es, p.1.str ∉ fs.map Prod.fst → ∃ w, g p.2 = .ok w) → ReadsExtra P I fs (named es)
  | [], _, _ => .nil _
  | p :: es, hg, h => by
    have ih := extra_sound (fs := fs) (es := es) (fun q hq => hg q (by simp [hq])) (fun q hq => h q (by simp [hq]))
    by_cases hk : p.1.str ∈ fs.map Prod.fst
    · exact .declared _ _ _ _ hk ih
    · obtain ⟨w, hw⟩ := h p (by simp) hk
      exact .extra _ _ _ _ _ hk (hg p (by simp) w hw) ih

theorem map_sound {f : Ty → Node → Res DeErr DVal} {t : Ty} {a : MapAcc} {es : List (CowStr × Node)} {s : Stop} {v : DVal}
    (hp : ProperTy t) (hD : Drains a es s) (hn : s = .done → (es.map fun p => p.1.str).Nodup)
    (hf : ∀ t' p w, p ∈ es → sizeOf t' ≤ sizeOf t → ProperTy t' → f t' p.2 = .ok w → Reads P I t' p.2 w)
    (h : visit I f t a.call = .ok v) : s = .done ∧ ReadsMap P I t (named es) v := by
  cases t with
  | map t =>
    have h' : (entryLoop (fun _ => f t) (a.remaining + 1) a).map .entries = .ok v := by cases a <;> exact h
    obtain ⟨vs, h1, rfl⟩ := map_ok.1 h'
    obtain ⟨rfl, h2⟩ := (entryLoop_ok hD).1 h1
    cases hp with
    | map _ hp => exact ⟨rfl, .map _ _ _ (each_sound (fun p hp' w hw => hf t p w hp' (by simp) hp hw) h2)⟩
  | ignored =>
    have h' : (entryLoop (fun _ => f .ignored) (a.remaining + 1) a).map (fun _ => .ignored) = .ok v := by
      cases a <;> exact h
    obtain ⟨vs, h1, rfl⟩ := map_ok.1 h'
    obtain ⟨rfl, h2⟩ := (entryLoop_ok hD).1 h1
    exact ⟨rfl, .ignored _ _ (each_sound (fun p hp' w hw => hf .ignored p w hp' (by simp) hp hw) h2)⟩
  | any =>
    have h' : (entryLoop (fun _ => f .any) (a.remaining + 1) a).map .entries = .ok v := by
      cases a <;> exact h
    obtain ⟨vs, h1, rfl⟩ := map_ok.1 h'
    obtain ⟨rfl, h2⟩ := (entryLoop_ok hD).1 h1
    exact ⟨rfl, .any _ _ (each_sound (fun p hp' w hw => hf .any p w hp' (by simp) hp hw) h2)⟩
  | struct fs =>
    have h' : ((entryLoop (fun k => f ((field? k fs).getD .ignored)) (a.remaining + 1) a).bind
        fun es => (structFields es fs).map .entries) = .ok v := by cases a <;> exact h
    obtain ⟨found, h1, h2⟩ := bind_ok.1 h'
    obtain ⟨vs, h3, rfl⟩ := map_ok.1 h2
    obtain ⟨rfl, h4⟩ := (entryLoop_ok hD).1 h1
    cases hp with
    | struct _ hfs hp =>
      obtain ⟨h5, h6⟩ := (struct_entries_ok (hn rfl) hfs).1 ⟨found, h4, h3⟩
      refine ⟨rfl, .struct _ _ _ (fieldsOf_sound (fun g hg p hp' w hw => hf g.2 p w hp' ?_ (hp g hg) hw) h5)
        (extra_sound (fun p hp' w hw => hf .ignored p w hp' ?_ .ignored hw) h6)⟩
      · have := List.sizeOf_lt_of_mem hg
        have hp2 : sizeOf g.2 < sizeOf g := by cases g; simp; omega
        simp only [Ty.struct.sizeOf_spec]; omega
      · simp only [Ty.struct.sizeOf_spec, Ty.ignored.sizeOf_spec]; omega
  | _ => cases a <;> cases h

theorem number_call {n : Number} {c : Call} (h : deserializeNumber P n = .ok c) :
    (∃ x, IsFloat P n x ∧ c = .f64 x) ∨ ∃ k, IsInteger n k ∧ c = .i64 k := by
  unfold deserializeNumber at h
  cases hf : n.isFloat with
  | true =>
    rw [hf, if_pos rfl] at h
    cases hp : P n.input.str with
    | none => rw [hp] at h; cases h
    | some x => rw [hp] at h; cases h; exact .inl ⟨x, ⟨hf, hp⟩, rfl⟩
  | false =>
    have hs : n.isSigned = true := by simpa [Number.isFloat] using hf
    rw [hf, if_neg (by decide), hs, if_pos rfl] at h
    cases hp : n.asInt ⟨true, 64⟩ with
    | none => rw [hp] at h; cases h
    | some k => rw [hp] at h; cases h; exact .inr ⟨k, ⟨hf, hp⟩, rfl⟩

theorem float_call {n : Number} {x : F64} (h : IsFloat P n x) : deserializeNumber P n = .ok (.f64 x) := by
  unfold deserializeNumber
  rw [h.1, if_pos rfl, h.2]

theorem integer_call {n : Number} {k : Int} (h : IsInteger n k) : deserializeNumber P n = .ok (.i64 k) := by
  have hs : n.isSigned = true := by simpa [Number.isFloat] using h.1
  unfold deserializeNumber
  rw [h.1, if_neg (by decide), hs, if_pos rfl, h.2]

theorem string_visit {f : Ty → Node → Res DeErr DVal} {t : Ty} {s : CowStr} {c : Call} {v : DVal} (hv : visit I f t c = .ok v)
    (hc : c = .borrowedStr s.str ∨ c = .string s.str ∨ c = .str s.str) :
    (t = .string ∧ v = .string s.str) ∨ (t = .str ∧ c = .borrowedStr s.str ∧ v = .string s.str) ∨
    (∃ x, t = .char ∧ s.str = [x] ∧ v = .char x) ∨ (t = .ignored ∧ v = .ignored) ∨
    (t = .any ∧ v = .string s.str) ∨ ∃ u, t = .bytes u ∧ v = .seq ((utf8 s.str).map fun b : Nat => .int b) := by
  cases t with
  | string => rcases hc with rfl | rfl | rfl <;> cases hv <;> exact .inl ⟨rfl, rfl⟩
  | str =>
    rcases hc with rfl | rfl | rfl
    · cases hv; exact .inr (.inl ⟨rfl, rfl, rfl⟩)
    · cases hv
    · cases hv
  | char =>
    have : ∃ x, s.str = [x] ∧ v = .char x := by
      generalize hz : s.str = z at hc
      rcases hc with rfl | rfl | rfl <;> rcases z with _ | ⟨x, _ | ⟨y, z⟩⟩ <;> cases hv <;> exact ⟨x, rfl, rfl⟩
    obtain ⟨x, h1, h2⟩ := this
    exact .inr (.inr (.inl ⟨x, rfl, h1, h2⟩))
  | ignored => rcases hc with rfl | rfl | rfl <;> cases hv <;> exact .inr (.inr (.inr (.inl ⟨rfl, rfl⟩)))
  | any => rcases hc with rfl | rfl | rfl <;> cases hv <;> exact .inr (.inr (.inr (.inr (.inl ⟨rfl, rfl⟩))))
  | bytes u =>
    rcases hc with rfl | rfl | rfl <;> cases hv <;> exact .inr (.inr (.inr (.inr (.inr ⟨u, rfl, by rw [strBytes_eq]⟩))))
  | _ => rcases hc with rfl | rfl | rfl <;> cases hv

theorem named_object (l : List (CowStr × Expr)) :
    named (l.map fun p => (p.1, .expr p.2)) = l.map fun p => (p.1.str, .expr p.2) := by
  simp [named]

theorem objectNode_sound {f : Ty → Node → Res DeErr DVal} {t : Ty} {o : List (ObjKey × Expr)} {v : DVal} (hp : ProperTy t)
    (hf : ∀ t' n w, (Node.measure n) < sizeOf o → sizeOf t' ≤ sizeOf t → ProperTy t' → f t' n = .ok w → Reads P I t' n w)
    (h : visit I f t (.mapObject (.new o)) = .ok v) : Reads P I t (.expr (.object o)) v := by
  obtain ⟨es, s, hD, hes⟩ := drains_exists (.object (.new o))
  have hkey : s = .done → ∃ l, o = l.map (fun p => (ObjKey.ident p.1, p.2)) ∧ Distinct l ∧
      es = l.map fun p => (p.1, .expr p.2) := by
    rintro rfl
    rcases Props.c46_complete o with ⟨l, rfl, hd⟩ | ⟨pre, k, e, post, rfl, hd, hk⟩ | ⟨pre, k, e, post, rfl, hd⟩
    · exact ⟨l, rfl, hd, (drains_functional hD (Props.c46_entries l hd)).1⟩
    · cases (drains_functional hD (Props.c46_duplicate pre k e post hd hk)).2
    · cases (drains_functional hD (Props.c46_expression_key pre k e post hd)).2
  obtain ⟨rfl, hr⟩ := map_sound (P := P) (a := .object (.new o)) hp hD (by
    intro hs
    obtain ⟨l, -, hd, rfl⟩ := hkey hs
    rw [List.map_map]; exact hd) (fun t' p w hp' => hf t' p.2 w (by
      obtain ⟨e, he, hn⟩ := hes p hp'
      rw [hn]
      have h1 := List.sizeOf_lt_of_mem he
      simp only [Prod.mk.sizeOf_spec] at h1
      simp only [Node.measure, ObjectMapAccess.new] at *
      omega)) h
  obtain ⟨l, ho, hd, he⟩ := hkey rfl
  rw [he, named_object] at hr
  exact .object _ _ _ _ ⟨l, ho, hd, rfl⟩ hr

theorem bodyNode_sound {ord : HashOrder} {f : Ty → Node → Res DeErr DVal} {t : Ty} {b : Body} {v : DVal} (hp : ProperTy t)
    (hf : ∀ t' n w, (Node.measure n) < sizeOf b → sizeOf t' ≤ sizeOf t → ProperTy t' → f t' n = .ok w → Reads P I t' n w)
    (h : visit I f t (.mapBody (.new ord b)) = .ok v) : Reads P I t (.body b) v := by
  obtain ⟨es, s, hD, hes⟩ := drains_exists (.body (.new ord b))
  obtain ⟨rfl, hr⟩ := map_sound (P := P) (a := .body (.new ord b)) hp hD (by
    rintro rfl; exact (drained_entry hD).1) (fun t' p w hp' => hf t' p.2 w (body_child (hes p hp'))) h
  obtain ⟨hn, hd, hc, he⟩ := drained_entry hD
  refine .body _ _ _ _ ⟨hd, hc, by rw [named, List.map_map]; exact hn, fun k n => ?_⟩ hr
  rw [← he k n, named, List.mem_map]
  constructor
  · rintro ⟨p, hp, h⟩; cases h; exact ⟨p, hp, rfl, rfl⟩
  · rintro ⟨p, hp, rfl, rfl⟩; exact ⟨p, hp, rfl⟩

/-- an expression read by the generic method -/
theorem any_sound {f : Ty → Node → Res DeErr DVal} {t : Ty} {e : Expr} {c : Call} {v : DVal} (hp : ProperTy t)
    (hf : ∀ t' n w, (Node.measure n) < sizeOf e → sizeOf t' ≤ sizeOf t → ProperTy t' → f t' n = .ok w → Reads P I t' n w)
    (ho : ∀ t', t ≠ .option t') (hnew : ∀ t', t ≠ .newtype t')
    (ht : ∀ ts es, t = .tuple ts ∨ t = .tupleStruct ts → e = .tuple es → es.length = ts.length)
    (hc : e.deserializeAny P = .ok c) (h : visit I f t c = .ok v) : Reads P I t (.expr e) v := by
  cases e with
  | null =>
    cases hc
    cases t with
    | unit => cases h; exact .unit
    | unitStruct => cases h; exact .unitStruct
    | ignored => cases h; exact .ignoredNull
    | any => cases h; exact .anyNull
    | option t => exact absurd rfl (ho t)
    | _ => cases h
  | boolean b =>
    cases hc
    cases t with
    | bool => cases h; exact .bool _
    | ignored => cases h; exact .ignoredBool _
    | any => cases h; exact .anyBool _
    | _ => cases h
  | number n =>
    rcases number_call hc with ⟨x, hx, rfl⟩ | ⟨k, hk, rfl⟩
    · cases t with
      | f64 => cases h; exact .float _ _ hx
      | f32 => cases h; exact .float32 _ _ hx
      | ignored => cases h; exact .ignoredFloat _ _ hx
      | any => cases h; exact .anyFloat _ _ hx
      | _ => cases h
    · cases t with
      | f64 => cases h; exact .floatOfInt _ _ hk
      | f32 => cases h; exact .float32OfInt _ _ hk
      | ignored => cases h; exact .ignoredInt _ _ hk
      | any => cases h; exact .anyInt _ _ hk
      | int T =>
        simp only [visit] at h
        split at h
        · rename_i hr
          cases h
          simp only [IntTy.inRange, Bool.and_eq_true, decide_eq_true_eq] at hr
          exact .int _ _ _ hk hr.1 hr.2
        · cases h
      | _ => cases h
  | string s =>
    have hcall : c = .borrowedStr s.str ∨ c = .string s.str ∨ c = .str s.str := by
      simp only [Expr.deserializeAny, deserializeString, Res.ok.injEq] at hc
      rw [← hc]
      split
      · exact .inr (.inl rfl)
      · exact .inl rfl
    rcases string_visit h hcall with ⟨rfl, rfl⟩ | ⟨rfl, hb, rfl⟩ | ⟨x, rfl, hx, rfl⟩ | ⟨rfl, rfl⟩ | ⟨rfl, rfl⟩ | ⟨u, rfl, rfl⟩
    · exact .string _
    · obtain ⟨o, s⟩ := s
      cases o with
      | false => exact .str s
      | true => rw [hb] at hc; cases hc
    · exact .char _ _ hx
    · exact .ignoredString _
    · exact .anyString _
    · exact .bytesString _ _
  | tuple es =>
    cases hc
    refine .tuple _ _ _ (fun ts h => ht ts es h rfl) hnew (seq_sound hp (fun t' n w hn => hf t' n w ?_) h)
    obtain ⟨e, he, rfl⟩ := List.mem_map.1 hn
    have := List.sizeOf_lt_of_mem he
    simp only [Node.measure, Expr.tuple.sizeOf_spec]; omega
  | object o =>
    cases hc
    exact objectNode_sound hp (fun t' n w hn => hf t' n w (by simp only [Expr.object.sizeOf_spec]; omega)) h

theorem blockSeq_sound {ord : HashOrder} {f : Ty → Node → Res DeErr DVal} {t : Ty} {c : BlockBody} {bs : List Body} {v : DVal}
    (hp : ProperTy t) (hu : Unlabelled c bs)
    (hf : ∀ t' n w, (Node.measure n) < (Node.block c).measure → sizeOf t' ≤ sizeOf t → ProperTy t' → f t' n = .ok w →
      Reads P I t' n w)
    (hl : bs.length ≠ 1 ∨ (∃ t', t = .seq t')) (hr : ¬ SeqRefused t c)
    (hc : c.deserialize ord t.hint = .ok (.seq (bs.map .body)))
    (h : visit I f t (.seq (bs.map .body)) = .ok v) : Reads P I t (.block c) v := by
  have hch := (deserialize_child (P := P) (n := .block c) hc).1
  exact .blocks _ _ _ _ hu hl hr (seq_sound hp (fun t' n w hn => hf t' n w (hch n hn)) h)

theorem deserialize_reads (ord : HashOrder) : ∀ (N : Nat) (t : Ty) (n : Node) (v : DVal), sizeOf t + n.measure < N →
    ProperTy t → deserialize P I ord t n = .ok v → Reads P I t n v := by
  intro N
  induction N with
  | zero => intros; omega
  | succ N ih =>
    intro t n v hN hp h
    rw [deserialize_eq] at h
    obtain ⟨c, hc, hv⟩ := bind_ok.1 h
    have hf : ∀ t' m w, (Node.measure m) < n.measure → sizeOf t' ≤ sizeOf t → ProperTy t' →
        deserialize P I ord t' m = .ok w → Reads P I t' m w := fun t' m w hm ht hp' hw => ih t' m w (by omega) hp' hw
    cases n with
    | expr e =>
      by_cases ho : ∃ t', t = .option t'
      · obtain ⟨t', rfl⟩ := ho
        cases hp with
        | option _ hp =>
          by_cases he : e = .null
          · subst he; cases hc; cases hv; exact .none _
          · have hc' : c = .some (.expr e) := by
              cases e <;> first | exact absurd rfl he | (cases hc; rfl)
            subst hc'
            obtain ⟨w, hw, rfl⟩ := map_ok.1 hv
            exact .some _ _ _ he (ih t' (.expr e) w (by simp only [Ty.option.sizeOf_spec] at hN; omega) hp hw)
      by_cases hn : ∃ t', t = .newtype t'
      · obtain ⟨t', rfl⟩ := hn
        cases hp with
        | newtype _ hp =>
          cases hc
          exact .newtype _ _ _ (ih t' (.expr e) v (by simp only [Ty.newtype.sizeOf_spec] at hN; omega) hp hv)
      have htup : ∀ ts, t = .tuple ts ∨ t = .tupleStruct ts →
          ∀ es, e = .tuple es → es.length = ts.length ∧ e.deserializeAny P = .ok c := by
        rintro ts hts es rfl
        have hc' : deserializeTuple es (some ts.length) = .ok c := by
          rcases hts with rfl | rfl <;> exact hc
        simp only [deserializeTuple] at hc'
        split at hc'
        · cases hc'
        · rename_i hl
          exact ⟨by simpa using hl, hc'⟩
      refine any_sound hp hf (fun t' h => ho ⟨t', h⟩) (fun t' h => hn ⟨t', h⟩) (fun ts es h he => (htup ts h es he).1) ?_ hv
      have hc' : e.deserialize P t.hint = .ok c := hc
      cases t with
      | option t' => exact absurd ⟨t', rfl⟩ ho
      | newtype t' => exact absurd ⟨t', rfl⟩ hn
      | tuple ts =>
        cases e with
        | tuple es => exact (htup ts (.inl rfl) es rfl).2
        | _ => exact hc'
      | tupleStruct ts =>
        cases e with
        | tuple es => exact (htup ts (.inr rfl) es rfl).2
        | _ => exact hc'
      | _ => exact hc'
    | body b =>
      cases hc
      exact bodyNode_sound hp hf hv
    | key s =>
      have hcall : (c = .enum s.str ∧ ∃ vs, t = .enum vs) ∨
          (c = .borrowedStr s.str ∨ c = .string s.str ∨ c = .str s.str) := by
        simp only [Node.deserialize, keyDeserialize] at hc
        split at hc
        · rename_i hh
          cases hc
          cases t <;> first | cases hh; done | exact .inl ⟨rfl, _, rfl⟩
        · rw [Res.ok.injEq] at hc
          right
          rw [← hc]
          split
          · exact .inr (.inl rfl)
          · exact .inr (.inr rfl)
      rcases hcall with ⟨rfl, vs, rfl⟩ | hcall
      · simp only [visit, visitVariant] at hv
        split at hv
        · rename_i hfi; cases hv; exact .keyEnum _ _ hfi
        · cases hv
      · rcases string_visit hv hcall with ⟨rfl, rfl⟩ | ⟨rfl, rfl, rfl⟩ | ⟨x, rfl, hx, rfl⟩ | ⟨rfl, rfl⟩ | ⟨rfl, rfl⟩ | ⟨u, rfl, rfl⟩
        · exact .keyString _
        · simp only [Node.deserialize, keyDeserialize, Ty.hint, Res.ok.injEq] at hc
          split at hc <;> cases hc
        · exact .keyChar _ _ hx
        · exact .ignoredKey _
        · exact .anyKey _
        · exact .bytesKey _ _
    | block d =>
      have hc' : d.deserialize ord t.hint = .ok c := hc
      by_cases ho : ∃ t', t = .option t'
      · obtain ⟨t', rfl⟩ := ho
        cases hp with
        | option _ hp =>
          simp only [Ty.hint, BlockBody.deserialize] at hc'
          split at hc'
          · rename_i hl; cases hc'; cases hv; exact .noBlock _ _ hl
          · rename_i hl
            cases hc'
            obtain ⟨w, hw, rfl⟩ := map_ok.1 hv
            exact .someBlock _ _ _ hl (ih t' (.block d) w (by simp only [Ty.option.sizeOf_spec] at hN; omega) hp hw)
      have hbody : ∀ b, Unlabelled d [b] → (∀ t', t ≠ .seq t') → c = .mapBody (.new ord b) → Reads P I t (.block d) v := by
        rintro b hu hns rfl
        refine .block _ _ b _ hu hns (bodyNode_sound hp (fun t' m w hm ht hp' hw => hf t' m w ?_ ht hp' hw) hv)
        have : (Node.block d).measure = sizeOf b + 1 := by
          cases hu <;> simp [Node.measure, BlockBody.flatIter, BlockBody.flatIterLabels, maxSize]
        omega
      by_cases hs : ∃ t', t = .seq t'
      · obtain ⟨t', rfl⟩ := hs
        cases d with
        | body bs =>
          have : c = .seq (bs.map .body) := by cases hc'; rfl
          subst this
          exact blockSeq_sound (ord := ord) hp (.body bs) hf (.inr ⟨t', rfl⟩) (by rintro ⟨-, b, m, h⟩; cases h) hc' hv
        | labels e m =>
          cases m with
          | cons x m => cases hc'
          | nil =>
            rcases e with _ | ⟨b, _ | ⟨b', e⟩⟩
            · cases hc'
              exact blockSeq_sound (ord := ord) hp (.labels []) hf (.inl (by simp)) (by rintro ⟨-, b, m, h⟩; cases h) rfl hv
            · cases hc'; cases hv
            · cases hc'
              exact blockSeq_sound (ord := ord) hp (.labels (b :: b' :: e)) hf (.inl (by simp)) (by rintro ⟨-, b, m, h⟩; cases h) rfl hv
      have hns : ∀ t', t ≠ .seq t' := fun t' h => hs ⟨t', h⟩
      have hany : d.deserializeAny ord = .ok c := by
        cases t with
        | option t' => exact absurd ⟨t', rfl⟩ ho
        | seq t' => exact absurd ⟨t', rfl⟩ hs
        | _ => exact hc'
      have hnr : ¬ SeqRefused t d := fun h => hs h.1
      cases d with
      | body bs =>
        rcases bs with _ | ⟨b, _ | ⟨b', bs⟩⟩
        · cases hany
          exact blockSeq_sound (ord := ord) hp (.body []) hf (.inl (by simp)) hnr hc' hv
        · cases hany
          exact hbody b (.body [b]) hns rfl
        · cases hany
          exact blockSeq_sound (ord := ord) hp (.body (b :: b' :: bs)) hf (.inl (by simp)) hnr hc' hv
      | labels e m =>
        cases m with
        | cons x m => cases hany
        | nil =>
          rcases e with _ | ⟨b, _ | ⟨b', e⟩⟩
          · cases hany
            exact blockSeq_sound (ord := ord) hp (.labels []) hf (.inl (by simp)) hnr hc' hv
          · cases hany
            exact hbody b (.labels [b]) hns rfl
          · cases hany
            exact blockSeq_sound (ord := ord) hp (.labels (b :: b' :: e)) hf (.inl (by simp)) hnr hc' hv

/-! ## what is read is deserialized -/

/-- `deserialize` gives this value, up to the order of map entries -/
abbrev Gives (P : F64Parse) (I : F64OfInt) (ord : HashOrder) (t : Ty) (n : Node) (v : DVal) : Prop :=
  ∃ v', deserialize P I ord t n = .ok v' ∧ SameVal v v'

theorem gives_of {ord : HashOrder} {t : Ty} {n : Node} {v : DVal} {c : Call} (hc : n.deserialize P ord t.hint = .ok c)
    (h : ∃ v', visit I (deserialize P I ord) t c = .ok v' ∧ SameVal v v') : Gives P I ord t n v := by
  obtain ⟨v', h1, h2⟩ := h
  refine ⟨v', ?_, h2⟩
  rw [deserialize_eq, hc]; exact h1

theorem gives_ok {ord : HashOrder} {t : Ty} {n : Node} {v : DVal} {c : Call} (hc : n.deserialize P ord t.hint = .ok c)
    (h : visit I (deserialize P I ord) t c = .ok v) : Gives P I ord t n v := gives_of hc ⟨v, h, .refl v⟩

theorem forward_any {e : Expr} {t : Ty} (ho : ∀ t', t ≠ .option t') (hnew : ∀ t', t ≠ .newtype t')
    (ht : ∀ ts es, t = .tuple ts ∨ t = .tupleStruct ts → e = .tuple es → es.length = ts.length) :
    e.deserialize P t.hint = e.deserializeAny P := by
  cases t with
  | option t => exact absurd rfl (ho t)
  | newtype t => exact absurd rfl (hnew t)
  | tuple ts =>
    cases e with
    | tuple es =>
      have := ht ts es (.inl rfl) rfl
      simp [Expr.deserialize, Ty.hint, Expr.deserializeAny, deserializeTuple, this]
    | _ => rfl
  | tupleStruct ts =>
    cases e with
    | tuple es =>
      have := ht ts es (.inr rfl) rfl
      simp [Expr.deserialize, Ty.hint, Expr.deserializeAny, deserializeTuple, this]
    | _ => rfl
  | _ => rfl

theorem readsMap_kind {t : Ty} {ns : List (Str × Node)} {v : DVal} (h : ReadsMap P I t ns v) :
    (∃ t', t = .map t') ∨ (∃ fs, t = .struct fs) ∨ t = .ignored ∨ t = .any := by
  cases h with
  | map t => exact .inl ⟨t, rfl⟩
  | struct fs => exact .inr (.inl ⟨fs, rfl⟩)
  | ignored => exact .inr (.inr (.inl rfl))
  | any => exact .inr (.inr (.inr rfl))

theorem drains_objectEntries {o : List (ObjKey × Expr)} {ns : List (Str × Node)} (h : ObjectEntries o ns) :
    ∃ es, Drains (.object (.new o)) es .done ∧ (es.map fun p => p.1.str).Nodup ∧ (named es).Perm ns := by
  obtain ⟨l, rfl, hd, rfl⟩ := h
  refine ⟨_, Props.c46_entries l hd, ?_, ?_⟩
  · rw [List.map_map]; exact hd
  · rw [named_object]

theorem drains_bodyEntries (ord : HashOrder) {b : Body} {ns : List (Str × Node)} (h : BodyEntries b ns) :
    ∃ es, Drains (.body (.new ord b)) es .done ∧ (es.map fun p => p.1.str).Nodup ∧ (named es).Perm ns := by
  obtain ⟨hd, hc, hn, he⟩ := h
  obtain ⟨es, hD⟩ := drained_exists ord hd hc
  obtain ⟨h1, -, -, h2⟩ := drained_entry hD
  have nodup_of : ∀ {l : List (Str × Node)}, (l.map Prod.fst).Nodup → l.Nodup := fun h =>
    List.Pairwise.of_map Prod.fst (fun a b h1 h2 => h1 (by rw [h2])) h
  refine ⟨es, hD, h1, (List.perm_ext_iff_of_nodup (nodup_of (by rw [named, List.map_map]; exact h1)) (nodup_of hn)).2 ?_⟩
  rintro ⟨k, n⟩
  rw [he k n, ← h2 k n, named, List.mem_map]
  constructor
  · rintro ⟨p, hp, h⟩; cases h; exact ⟨p, hp, rfl, rfl⟩
  · rintro ⟨p, hp, rfl, rfl⟩; exact ⟨p, hp, rfl⟩

/-- entries under their names, and values under the same names -/
abbrev GivesEach (P : F64Parse) (I : F64OfInt) (ord : HashOrder) (t : Ty) (ns : List (Str × Node)) (vs : List (Str × DVal)) :
    Prop :=
  ∃ vs', AllRel (fun p q => q.1 = p.1 ∧ deserialize P I ord t p.2 = .ok q.2) ns vs' ∧ AllRel SameEntry vs vs'

theorem each_loop {ord : HashOrder} {t : Ty} {ns : List (Str × Node)} {vs : List (Str × DVal)} {a : MapAcc}
    {es : List (CowStr × Node)} (h : GivesEach P I ord t ns vs) (hD : Drains a es .done) (hp : (named es).Perm ns) :
    ∃ vs' vs'', entryLoop (fun _ => deserialize P I ord t) (a.remaining + 1) a = .ok vs'' ∧ AllRel SameEntry vs vs' ∧
      vs'.Perm vs'' := by
  obtain ⟨vs', h1, h2⟩ := h
  obtain ⟨vs'', h3, h4⟩ := h1.perm hp.symm
  refine ⟨vs', vs'', (entryLoop_ok hD).2 ⟨rfl, ?_⟩, h2, h4⟩
  clear hD h1 h2 h4 hp
  generalize hz : named es = z at h3
  induction h3 generalizing es with
  | nil =>
    cases es with
    | nil => exact .nil
    | cons p es => cases hz
  | cons p q z vs h _ ih =>
    cases es with
    | nil => cases hz
    | cons p' es =>
      injection hz with hz1 hz2
      subst hz1
      exact .cons _ _ _ _ h (ih hz2)

mutual
theorem reads_ok (ord : HashOrder) : ∀ {t : Ty} {n : Node} {v : DVal}, Reads P I t n v → ProperTy t → Gives P I ord t n v
  | _, _, _, .unit, _ => gives_ok rfl rfl
  | _, _, _, .unitStruct, _ => gives_ok rfl rfl
  | _, _, _, .bool b, _ => gives_ok rfl rfl
  | _, _, _, .int T n k hk h1 h2, _ => gives_ok (integer_call hk) (by simp [visit, IntTy.inRange, h1, h2])
  | _, _, _, .float n x hx, _ => gives_ok (float_call hx) rfl
  | _, _, _, .floatOfInt n k hk, _ => gives_ok (integer_call hk) rfl
  | _, _, _, .float32 n x hx, _ => gives_ok (float_call hx) rfl
  | _, _, _, .float32OfInt n k hk, _ => gives_ok (integer_call hk) rfl
  | _, _, _, .string s, _ => by
    refine gives_ok (c := deserializeString s) rfl ?_
    unfold deserializeString
    split <;> rfl
  | _, _, _, .str s, _ => gives_ok rfl rfl
  | _, _, _, .char s c hc, _ => by
    refine gives_ok (c := deserializeString s) rfl ?_
    unfold deserializeString
    rw [hc]
    split <;> rfl
  | _, _, _, .none t, _ => gives_ok rfl rfl
  | _, _, _, .some t e v he h, hp => by
    have hp' : ProperTy t := by cases hp; assumption
    obtain ⟨v', h1, h2⟩ := reads_ok ord h hp'
    refine gives_of (c := .some (.expr e)) (by cases e <;> first | exact absurd rfl he | rfl) ⟨.some v', ?_, .some _ _ h2⟩
    simp only [visit, h1]; rfl
  | _, _, _, .newtype t e v h, hp => by
    have hp' : ProperTy t := by cases hp; assumption
    obtain ⟨v', h1, h2⟩ := reads_ok ord h hp'
    exact gives_of (c := .newtype (.expr e)) rfl ⟨v', h1, h2⟩
  | _, _, _, .tuple t es v hl hn h, hp => by
    refine gives_of (c := .seq (es.map .expr)) ?_ (readsSeq_ok ord h hp)
    show (Expr.tuple es).deserialize P t.hint = _
    rw [forward_any (by rintro t' rfl; cases h) hn (by
      intro ts es' ht he; cases he; exact hl ts ht)]
    rfl
  | _, _, _, .object t o ns v he h, hp => by
    obtain ⟨es, hD, h1, h2⟩ := drains_objectEntries he
    refine gives_of (c := .mapObject (.new o)) ?_ (readsMap_ok ord h hp (a := .object (.new o)) hD h1 h2)
    rcases readsMap_kind h with ⟨t', rfl⟩ | ⟨fs, rfl⟩ | rfl | rfl <;> rfl
  | _, _, _, .body t b ns v he h, hp => by
    obtain ⟨es, hD, h1, h2⟩ := drains_bodyEntries ord he
    exact gives_of (c := .mapBody (.new ord b)) rfl (readsMap_ok ord h hp (a := .body (.new ord b)) hD h1 h2)
  | _, _, _, .block t c b v hu hs h, hp => by
    obtain ⟨v', h1, h2⟩ := reads_ok ord h hp
    refine ⟨v', ?_, h2⟩
    have hk : ∀ t', t ≠ .option t' := by
      rintro t' rfl
      cases h with
      | body _ _ _ _ _ hm => cases hm
    rw [deserialize_eq] at h1 ⊢
    rw [← h1]
    have : (Node.block c).deserialize P ord t.hint = (Node.body b).deserialize P ord t.hint := by
      show c.deserialize ord t.hint = Body.deserialize ord b
      cases hu <;> cases t <;> first | exact absurd rfl (hk _) | exact absurd rfl (hs _) | rfl
    rw [this]
  | _, _, _, .blocks t c bs v hu hl hr h, hp => by
    refine gives_of (c := .seq (bs.map .body)) ?_ (readsSeq_ok ord h hp)
    show c.deserialize ord t.hint = _
    have hno : ∀ t', t ≠ .option t' := by rintro t' rfl; cases h
    by_cases hs : ∃ t', t = .seq t'
    · obtain ⟨t', rfl⟩ := hs
      cases hu with
      | body => rfl
      | labels =>
        rcases bs with _ | ⟨b, _ | ⟨b', bs⟩⟩
        · rfl
        · exact absurd ⟨⟨t', rfl⟩, b, _, rfl⟩ hr
        · rfl
    · have hl : bs.length ≠ 1 := hl.resolve_right hs
      have hany : c.deserialize ord t.hint = c.deserializeAny ord := by
        cases t <;> first | exact absurd rfl (hno _) | exact absurd ⟨_, rfl⟩ hs | rfl
      rw [hany]
      rcases bs with _ | ⟨b, _ | ⟨b', bs⟩⟩
      · cases hu <;> rfl
      · exact absurd rfl hl
      · cases hu <;> rfl
  | _, _, _, .someBlock t c v hl h, hp => by
    have hp' : ProperTy t := by cases hp; assumption
    obtain ⟨v', h1, h2⟩ := reads_ok ord h hp'
    refine gives_of (c := .some (.block c)) ?_ ⟨.some v', ?_, .some _ _ h2⟩
    · show c.deserialize ord .option = _
      simp [BlockBody.deserialize, hl]
    · simp only [visit, h1]; rfl
  | _, _, _, .noBlock t c hl, _ => by
    refine gives_ok (c := .none) ?_ rfl
    show c.deserialize ord .option = _
    simp [BlockBody.deserialize, hl]
  | _, _, _, .keyString s, _ => by
    refine gives_ok (c := if s.owned then .string s.str else .str s.str) rfl ?_
    split <;> rfl
  | _, _, _, .keyChar s c hc, _ => by
    refine gives_ok (c := if s.owned then .string s.str else .str s.str) rfl ?_
    rw [hc]
    split <;> rfl
  | _, _, _, .keyEnum s vs hv, _ => gives_ok (c := .enum s.str) rfl (by simp [visit, visitVariant, hv])
  | _, _, _, .ignoredNull, _ => gives_ok rfl rfl
  | _, _, _, .ignoredBool b, _ => gives_ok rfl rfl
  | _, _, _, .ignoredInt n k hk, _ => gives_ok (integer_call hk) rfl
  | _, _, _, .ignoredFloat n x hx, _ => gives_ok (float_call hx) rfl
  | _, _, _, .ignoredString s, _ => by
    refine gives_ok (c := deserializeString s) rfl ?_
    unfold deserializeString
    split <;> rfl
  | _, _, _, .ignoredKey s, _ => by
    refine gives_ok (c := if s.owned then .string s.str else .str s.str) rfl ?_
    split <;> rfl
  | _, _, _, .anyNull, _ => gives_ok rfl rfl
  | _, _, _, .anyBool b, _ => gives_ok rfl rfl
  | _, _, _, .anyInt n k hk, _ => gives_ok (integer_call hk) rfl
  | _, _, _, .anyFloat n x hx, _ => gives_ok (float_call hx) rfl
  | _, _, _, .anyString s, _ => by
    refine gives_ok (c := deserializeString s) rfl ?_
    unfold deserializeString
    split <;> rfl
  | _, _, _, .anyKey s, _ => by
    refine gives_ok (c := if s.owned then .string s.str else .str s.str) rfl ?_
    split <;> rfl
  | _, _, _, .bytesString u s, _ => by
    refine gives_ok (c := deserializeString s) rfl ?_
    unfold deserializeString
    rw [← strBytes_eq]
    split <;> rfl
  | _, _, _, .bytesKey u s, _ => by
    refine gives_ok (c := if s.owned then .string s.str else .str s.str) rfl ?_
    rw [← strBytes_eq]
    split <;> rfl

theorem readsSeq_ok (ord : HashOrder) : ∀ {t : Ty} {ns : List Node} {v : DVal}, ReadsSeq P I t ns v → ProperTy t →
    ∃ v', visit I (deserialize P I ord) t (.seq ns) = .ok v' ∧ SameVal v v'
  | _, _, _, .seq t ns vs h, hp => by
    have hp' : ProperTy t := by cases hp; assumption
    obtain ⟨vs', h1, h2⟩ := readsAll_ok ord h hp'
    exact ⟨.seq vs', map_ok.2 ⟨vs', deAll_ok.2 h1, rfl⟩, .seq _ _ h2.length h2.zip⟩
  | _, _, _, .tuple ts ns rest vs h, hp => by
    have hp' : ∀ t ∈ ts, ProperTy t := by cases hp; assumption
    obtain ⟨vs', h1, h2⟩ := readsFields_ok ord h hp' rest
    exact ⟨.seq vs', map_ok.2 ⟨vs', h1, rfl⟩, .seq _ _ h2.length h2.zip⟩
  | _, _, _, .tupleStruct ts ns rest vs h, hp => by
    have hp' : ∀ t ∈ ts, ProperTy t := by cases hp; assumption
    obtain ⟨vs', h1, h2⟩ := readsFields_ok ord h hp' rest
    exact ⟨.seq vs', map_ok.2 ⟨vs', h1, rfl⟩, .seq _ _ h2.length h2.zip⟩
  | _, _, _, .struct fs ns rest vs h, hp => by
    have hp' : ∀ f ∈ fs, ProperTy f.2 := by cases hp; assumption
    obtain ⟨vs', h1, h2⟩ := readsFields_ok ord h (by
      intro t ht
      obtain ⟨f, hf, rfl⟩ := List.mem_map.1 ht
      exact hp' f hf) rest
    exact ⟨_, map_ok.2 ⟨vs', h1, rfl⟩, sameVal_entries (zip_names h2) (.refl _)⟩
  | _, _, _, .newtype t n rest v h, hp => by
    have hp' : ProperTy t := by cases hp; assumption
    exact reads_ok ord h hp'
  | _, _, _, .ignored ns vs h, hp => by
    obtain ⟨vs', h1, h2⟩ := readsAll_ok ord h hp
    exact ⟨.ignored, map_ok.2 ⟨vs', deAll_ok.2 h1, rfl⟩, .refl _⟩
  | _, _, _, .any ns vs h, hp => by
    obtain ⟨vs', h1, h2⟩ := readsAll_ok ord h hp
    exact ⟨.seq vs', map_ok.2 ⟨vs', deAll_ok.2 h1, rfl⟩, .seq _ _ h2.length h2.zip⟩
  | _, _, _, .bytes u ns vs h, hp => by
    obtain ⟨vs', h1, h2⟩ := readsAll_ok ord h (.int _)
    rw [← u.isU8] at h1
    exact ⟨.seq vs', map_ok.2 ⟨vs', deAll_ok.2 h1, rfl⟩, .seq _ _ h2.length h2.zip⟩

theorem readsMap_ok (ord : HashOrder) : ∀ {t : Ty} {ns : List (Str × Node)} {v : DVal}, ReadsMap P I t ns v → ProperTy t →
    ∀ {a : MapAcc} {es : List (CowStr × Node)}, Drains a es .done → (es.map fun p => p.1.str).Nodup → (named es).Perm ns →
    ∃ v', visit I (deserialize P I ord) t a.call = .ok v' ∧ SameVal v v'
  | _, _, _, .map t ns vs h, hp, a, es, hD, hn, hpm => by
    have hp' : ProperTy t := by cases hp; assumption
    obtain ⟨vs', vs'', h1, h2, h3⟩ := each_loop (readsEach_ok ord h hp') hD hpm
    refine ⟨.entries vs'', ?_, sameVal_entries h2 h3⟩
    cases a <;> exact map_ok.2 ⟨_, h1, rfl⟩
  | _, _, _, .ignored ns vs h, hp, a, es, hD, hn, hpm => by
    obtain ⟨vs', vs'', h1, h2, h3⟩ := each_loop (readsEach_ok ord h hp) hD hpm
    refine ⟨.ignored, ?_, .refl _⟩
    cases a <;> exact map_ok.2 ⟨_, h1, rfl⟩
  | _, _, _, .any ns vs h, hp, a, es, hD, hn, hpm => by
    obtain ⟨vs', vs'', h1, h2, h3⟩ := each_loop (readsEach_ok ord h hp) hD hpm
    refine ⟨.entries vs'', ?_, sameVal_entries h2 h3⟩
    cases a <;> exact map_ok.2 ⟨_, h1, rfl⟩
  | _, _, _, .struct fs ns vs h h', hp, a, es, hD, hn, hpm => by
    have hfs : (fs.map Prod.fst).Nodup := by cases hp; assumption
    have hp' : ∀ f ∈ fs, ProperTy f.2 := by cases hp; assumption
    obtain ⟨vs', h1, h2⟩ := readsStruct_ok ord h hp'
    have h3 := readsExtra_ok ord h'
    have hmem : ∀ k n, (k, n) ∈ ns ↔ ∃ p ∈ es, p.1.str = k ∧ p.2 = n := by
      intro k n
      rw [← hpm.mem_iff, named, List.mem_map]
      constructor
      · rintro ⟨p, hp, h⟩; cases h; exact ⟨p, hp, rfl, rfl⟩
      · rintro ⟨p, hp, rfl, rfl⟩; exact ⟨p, hp, rfl⟩
    obtain ⟨found, h4, h5⟩ := (struct_entries_ok (g := deserialize P I ord) hn hfs (vs := vs')).2 ⟨h1.imp fun f q _ _ hq => ⟨hq.1, by
      rcases hq.2 with ⟨n, hn', hq'⟩ | ⟨hno, ho, hv⟩
      · obtain ⟨p, hp, h6, rfl⟩ := (hmem _ _).1 hn'
        exact .inl ⟨p, hp, h6, hq'⟩
      · exact .inr ⟨fun p hp h6 => hno (List.mem_map.2 ⟨_, (hmem _ _).2 ⟨p, hp, h6, rfl⟩, rfl⟩), ho, hv⟩⟩,
      fun p hp hk => h3 _ _ ((hmem _ _).2 ⟨p, hp, rfl, rfl⟩) hk⟩
    refine ⟨.entries vs', ?_, sameVal_entries h2 (.refl _)⟩
    have : ((entryLoop (fun k => deserialize P I ord ((field? k fs).getD .ignored)) (a.remaining + 1) a).bind
        fun es => (structFields es fs).map DVal.entries) = .ok (DVal.entries vs') :=
      bind_ok.2 ⟨found, (entryLoop_ok hD).2 ⟨rfl, h4⟩, map_ok.2 ⟨vs', h5, rfl⟩⟩
    cases a <;> exact this

theorem readsAll_ok (ord : HashOrder) : ∀ {t : Ty} {ns : List Node} {vs : List DVal}, ReadsAll P I t ns vs → ProperTy t →
    ∃ vs', AllRel (fun n v => deserialize P I ord t n = .ok v) ns vs' ∧ AllRel SameVal vs vs'
  | _, _, _, .nil t, _ => ⟨[], .nil, .nil⟩
  | _, _, _, .cons t n v ns vs h h', hp => by
    obtain ⟨v', h1, h2⟩ := reads_ok ord h hp
    obtain ⟨vs', h3, h4⟩ := readsAll_ok ord h' hp
    exact ⟨v' :: vs', .cons _ _ _ _ h1 h3, .cons _ _ _ _ h2 h4⟩

theorem readsFields_ok (ord : HashOrder) : ∀ {ts : List Ty} {ns : List Node} {vs : List DVal}, ReadsFields P I ts ns vs →
    (∀ t ∈ ts, ProperTy t) → ∀ rest, ∃ vs', deFields (deserialize P I ord) ts (ns ++ rest) = .ok vs' ∧ AllRel SameVal vs vs'
  | _, _, _, .nil, _, rest => ⟨[], by cases rest <;> rfl, .nil⟩
  | _, _, _, .cons t n v ts ns vs h h', hp, rest => by
    obtain ⟨v', h1, h2⟩ := reads_ok ord h (hp t (by simp))
    obtain ⟨vs', h3, h4⟩ := readsFields_ok ord h' (fun t ht => hp t (by simp [ht])) rest
    exact ⟨v' :: vs', bind_ok.2 ⟨v', h1, map_ok.2 ⟨vs', h3, rfl⟩⟩, .cons _ _ _ _ h2 h4⟩

theorem readsEach_ok (ord : HashOrder) : ∀ {t : Ty} {ns : List (Str × Node)} {vs : List (Str × DVal)},
    ReadsEach P I t ns vs → ProperTy t → GivesEach P I ord t ns vs
  | _, _, _, .nil t, _ => ⟨[], .nil, .nil⟩
  | _, _, _, .cons t k n v ns vs h h', hp => by
    obtain ⟨v', h1, h2⟩ := reads_ok ord h hp
    obtain ⟨vs', h3, h4⟩ := readsEach_ok ord h' hp
    exact ⟨(k, v') :: vs', .cons _ _ _ _ ⟨rfl, h1⟩ h3, .cons _ _ _ _ ⟨rfl, h2⟩ h4⟩

theorem readsStruct_ok (ord : HashOrder) : ∀ {fs : List (Str × Ty)} {ns : List (Str × Node)} {vs : List (Str × DVal)},
    ReadsStruct P I fs ns vs → (∀ f ∈ fs, ProperTy f.2) →
    ∃ vs', AllRel (fun f q => q.1 = f.1 ∧ ((∃ n, (f.1, n) ∈ ns ∧ deserialize P I ord f.2 n = .ok q.2) ∨
        (f.1 ∉ ns.map Prod.fst ∧ (∃ t, f.2 = .option t) ∧ q.2 = .none))) fs vs' ∧ AllRel SameEntry vs vs'
  | _, _, _, .nil ns, _ => ⟨[], .nil, .nil⟩
  | _, _, _, .present k t n v fs ns vs hm h h', hp => by
    obtain ⟨v', h1, h2⟩ := reads_ok ord h (hp (k, t) (by simp))
    obtain ⟨vs', h3, h4⟩ := readsStruct_ok ord h' (fun f hf => hp f (by simp [hf]))
    exact ⟨(k, v') :: vs', .cons _ _ _ _ ⟨rfl, .inl ⟨n, hm, h1⟩⟩ h3, .cons _ _ _ _ ⟨rfl, h2⟩ h4⟩
  | _, _, _, .absent k t fs ns vs hk h', hp => by
    obtain ⟨vs', h3, h4⟩ := readsStruct_ok ord h' (fun f hf => hp f (by simp [hf]))
    exact ⟨(k, .none) :: vs', .cons _ _ _ _ ⟨rfl, .inr ⟨hk, ⟨t, rfl⟩, rfl⟩⟩ h3, .cons _ _ _ _ ⟨rfl, .refl _⟩ h4⟩

theorem readsExtra_ok (ord : HashOrder) : ∀ {fs : List (Str × Ty)} {ns : List (Str × Node)}, ReadsExtra P I fs ns →
    ∀ k n, (k, n) ∈ ns → k ∉ fs.map Prod.fst → ∃ w, deserialize P I ord .ignored n = .ok w
  | _, _, .nil fs, k, n, h, _ => by cases h
  | _, _, .declared fs k' n' ns hk' h', k, n, h, hk => by
    rcases List.mem_cons.1 h with h | h
    · cases h; exact absurd hk' hk
    · exact readsExtra_ok ord h' k n h hk
  | _, _, .extra fs k' n' v ns hk' hr h', k, n, h, hk => by
    rcases List.mem_cons.1 h with h | h
    · cases h
      obtain ⟨v', h1, -⟩ := reads_ok ord hr .ignored
      exact ⟨v', h1⟩
    · exact readsExtra_ok ord h' k n h hk
end

end Verif
