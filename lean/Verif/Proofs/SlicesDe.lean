import Verif.Proofs.Slices
import Verif.Proofs.Reads
/-! # The texts of deserialized values -/
set_option autoImplicit false

namespace Verif
open Spec

/-- The texts below a node. -/
def nodeTexts : Node → List CowStr
  | .expr e => exprTexts e
  | .body b => bodyTexts b
  | .block c => c.flatIter.flatMap fun p => bodyTexts p.2
  | .key s => [s]

/-- A text below the node. -/
def From (n : Node) (b : Bool) (x : Str) : Prop := ∃ c ∈ nodeTexts n, c.str = x ∧ (b = true → c.owned = false)

theorem mem_bodyTexts {b : Body} {c : CowStr} : c ∈ bodyTexts b ↔ ∃ el ∈ b, c ∈ elementTexts el := by
  induction b with
  | nil => simp [bodyTexts]
  | cons el b ih => simp [bodyTexts, ih]

theorem mem_exprsTexts {es : List Expr} {c : CowStr} : c ∈ exprsTexts es ↔ ∃ e ∈ es, c ∈ exprTexts e := by
  induction es with
  | nil => simp [exprsTexts]
  | cons e es ih => simp [exprsTexts, ih]

theorem mem_pairsTexts {es : List (ObjKey × Expr)} {c : CowStr} :
    c ∈ pairsTexts es ↔ ∃ p ∈ es, c = keyText p.1 ∨ c ∈ exprTexts p.2 := by
  induction es with
  | nil => simp [pairsTexts]
  | cons p es ih =>
    obtain ⟨k, e⟩ := p
    simp only [pairsTexts, List.mem_cons, List.mem_append, ih]
    constructor
    · rintro (rfl | h | ⟨p, hp, h⟩)
      · exact ⟨_, .inl rfl, .inl rfl⟩
      · exact ⟨_, .inl rfl, .inr h⟩
      · exact ⟨p, .inr hp, h⟩
    · rintro ⟨p, rfl | hp, h⟩
      · rcases h with h | h
        · exact .inl h
        · exact .inr (.inl h)
      · exact .inr (.inr ⟨p, hp, h⟩)

theorem attrs_texts {b : Body} {k : CowStr} {e : Expr} (h : (k, e) ∈ attrs b) {c : CowStr} (hc : c = k ∨ c ∈ exprTexts e) :
    c ∈ bodyTexts b := by
  rw [attrs, List.mem_filterMap] at h
  obtain ⟨el, hel, h⟩ := h
  refine mem_bodyTexts.2 ⟨el, hel, ?_⟩
  cases el with
  | «attribute» k' e' =>
    simp only [Option.some.injEq, Prod.mk.injEq] at h
    obtain ⟨rfl, rfl⟩ := h
    simpa [elementTexts] using hc
  | block t ls x => cases h

theorem blocks_texts {b : Body} {q : Block} (h : q ∈ blocks b) {c : CowStr} (hc : c = q.type ∨ c ∈ bodyTexts q.body) :
    c ∈ bodyTexts b := by
  rw [blocks, List.mem_filterMap] at h
  obtain ⟨el, hel, h⟩ := h
  refine mem_bodyTexts.2 ⟨el, hel, ?_⟩
  cases el with
  | «attribute» k' e' => cases h
  | block t ls x =>
    simp only [Option.some.injEq] at h
    subst h
    rcases hc with hc | hc
    · simp [elementTexts, hc]
    · simp [elementTexts, hc]

theorem entryOf_from {b : Body} {k : Str} {n : Node} (h : EntryOf b k n) :
    (∀ c ∈ nodeTexts n, c ∈ bodyTexts b) ∧ ∃ c ∈ bodyTexts b, c.str = k := by
  rcases h with ⟨k', e, h, rfl, rfl⟩ | ⟨run, ⟨pre, post, hl, hp⟩, rfl⟩
  · exact ⟨fun c hc => attrs_texts h (.inr hc), k', attrs_texts h (.inl rfl), rfl⟩
  · have hrun : ∀ q ∈ run, q ∈ blocks b := fun q hq => by rw [hl]; simp [hq]
    refine ⟨fun c hc => ?_, ?_⟩
    · simp only [nodeTexts, List.mem_flatMap] at hc
      obtain ⟨p, hp', hc⟩ := hc
      have := fromIter_bodies (List.mem_map_of_mem (f := Prod.snd) hp')
      simp only [List.map_map, List.mem_map] at this
      obtain ⟨q, hq, e⟩ := this
      exact blocks_texts (hrun q hq) (.inr (by rw [← e] at hc; exact hc))
    · obtain ⟨hne, hall, -⟩ := hp
      cases run with
      | nil => exact absurd rfl hne
      | cons q run => exact ⟨q.type, blocks_texts (hrun q (by simp)) (.inl rfl), hall q (by simp)⟩

theorem unlabelled_texts {c : BlockBody} {bs : List Body} (h : Unlabelled c bs) {x : Body} (hx : x ∈ bs) {t : CowStr}
    (ht : t ∈ bodyTexts x) : t ∈ nodeTexts (.block c) := by
  cases h with
  | body => simp only [nodeTexts, BlockBody.flatIter, List.mem_flatMap]; exact ⟨([], x), by simp [hx], ht⟩
  | labels => simp only [nodeTexts, BlockBody.flatIter, List.mem_flatMap]; exact ⟨([], x), by simp [hx, BlockBody.flatIterLabels], ht⟩

theorem readsEach_keys {P : F64Parse} {I : F64OfInt} {t : Ty} {ns : List (Str × Node)} {vs : List (Str × DVal)}
    (h : ReadsEach P I t ns vs) : vs.map Prod.fst = ns.map Prod.fst := by
  induction ns generalizing vs with
  | nil => cases h; rfl
  | cons n ns ih => cases h with | cons _ k n v ns vs h h' => simp [ih h']

theorem readsMap_keys {P : F64Parse} {I : F64OfInt} {t : Ty} {ns : List (Str × Node)} {v : DVal} {x : Str} {w : DVal}
    {es : List (Str × DVal)} (h : ReadsMap P I (.map t) ns v) (e : v = .entries es) (hm : (x, w) ∈ es) : ∃ p ∈ ns, p.1 = x := by
  cases h with
  | map t ns vs h =>
    cases e
    have := List.mem_map_of_mem (f := Prod.fst) hm
    rw [readsEach_keys h] at this
    obtain ⟨p, hp, e⟩ := List.mem_map.1 this
    exact ⟨p, hp, e⟩

theorem Spec.HasText.some_inv {t : Ty} {v : DVal} {b : Bool} {x : Str} (h : HasText (.option t) (.some v) b x) : HasText t v b x := by
  cases h; assumption
theorem Spec.HasText.newtype_inv {t : Ty} {v : DVal} {b : Bool} {x : Str} (h : HasText (.newtype t) v b x) : HasText t v b x := by
  cases h; assumption
theorem Spec.HasText.seq_inv {t : Ty} {vs : List DVal} {b : Bool} {x : Str} (h : HasText (.seq t) (.seq vs) b x) :
    ∃ v ∈ vs, HasText t v b x := by
  cases h with | seq _ _ v _ _ hv ht => exact ⟨v, hv, ht⟩
theorem Spec.HasText.tuple_inv {ts : List Ty} {vs : List DVal} {b : Bool} {x : Str} (h : HasText (.tuple ts) (.seq vs) b x) :
    ∃ (i : Nat) (t : Ty) (v : DVal), ts[i]? = Option.some t ∧ vs[i]? = Option.some v ∧ HasText t v b x := by
  cases h with | tuple _ _ i t v _ _ h1 h2 ht => exact ⟨i, t, v, h1, h2, ht⟩
theorem Spec.HasText.tupleStruct_inv {ts : List Ty} {vs : List DVal} {b : Bool} {x : Str} (h : HasText (.tupleStruct ts) (.seq vs) b x) :
    ∃ (i : Nat) (t : Ty) (v : DVal), ts[i]? = Option.some t ∧ vs[i]? = Option.some v ∧ HasText t v b x := by
  cases h with | tupleStruct _ _ i t v _ _ h1 h2 ht => exact ⟨i, t, v, h1, h2, ht⟩
theorem Spec.HasText.map_inv {t : Ty} {es : List (Str × DVal)} {b : Bool} {x : Str} (h : HasText (.map t) (.entries es) b x) :
    (b = false ∧ ∃ v, (x, v) ∈ es) ∨ ∃ k v, (k, v) ∈ es ∧ HasText t v b x := by
  cases h with
  | mapKey _ _ _ v hm => exact .inl ⟨rfl, v, hm⟩
  | mapValue _ _ k v _ _ hm ht => exact .inr ⟨k, v, hm, ht⟩
theorem Spec.HasText.anySeq_inv {vs : List DVal} {b : Bool} {x : Str} (h : HasText .any (.seq vs) b x) :
    ∃ v ∈ vs, HasText .any v b x := by
  cases h with | anySeq _ v _ _ hv ht => exact ⟨v, hv, ht⟩
theorem Spec.HasText.anyMap_inv {es : List (Str × DVal)} {b : Bool} {x : Str} (h : HasText .any (.entries es) b x) :
    (b = false ∧ ∃ v, (x, v) ∈ es) ∨ ∃ k v, (k, v) ∈ es ∧ HasText .any v b x := by
  cases h with
  | anyKey _ _ v hm => exact .inl ⟨rfl, v, hm⟩
  | anyValue _ k v _ _ hm ht => exact .inr ⟨k, v, hm, ht⟩
theorem Spec.HasText.struct_inv {fs : List (Str × Ty)} {es : List (Str × DVal)} {b : Bool} {x : Str}
    (h : HasText (.struct fs) (.entries es) b x) : ∃ (i : Nat) (k k' : Str) (t : Ty) (v : DVal), fs[i]? = Option.some (k, t) ∧
      es[i]? = Option.some (k', v) ∧ HasText t v b x := by
  cases h with | field _ _ i k k' t v _ _ h1 h2 ht => exact ⟨i, k, k', t, v, h1, h2, ht⟩

mutual
theorem reads_texts {P : F64Parse} {I : F64OfInt} : ∀ {t : Ty} {n : Node} {v : DVal}, Reads P I t n v → ∀ {b : Bool} {x : Str},
    HasText t v b x → From n b x
  | _, _, _, .unit, _, _, ht => by cases ht
  | _, _, _, .unitStruct, _, _, ht => by cases ht
  | _, _, _, .bool _, _, _, ht => by cases ht
  | _, _, _, .int .., _, _, ht => by cases ht
  | _, _, _, .float .., _, _, ht => by cases ht
  | _, _, _, .floatOfInt .., _, _, ht => by cases ht
  | _, _, _, .float32 .., _, _, ht => by cases ht
  | _, _, _, .float32OfInt .., _, _, ht => by cases ht
  | _, _, _, .string s, _, _, ht => by cases ht; exact ⟨s, by simp [nodeTexts, exprTexts], rfl, by simp⟩
  | _, _, _, .str s, _, _, ht => by cases ht; exact ⟨.borrowed s, by simp [nodeTexts, exprTexts], rfl, fun _ => rfl⟩
  | _, _, _, .char .., _, _, ht => by cases ht
  | _, _, _, .none _, _, _, ht => by cases ht
  | _, _, _, .some t e v _ h, _, _, ht => reads_texts h ht.some_inv
  | _, _, _, .newtype t e v h, _, _, ht => reads_texts h ht.newtype_inv
  | _, _, _, .tuple t es v _ _ h, _, _, ht => by
    obtain ⟨n, hn, c, hc, h'⟩ := readsSeq_texts h ht
    obtain ⟨e, he, rfl⟩ := List.mem_map.1 hn
    exact ⟨c, mem_exprsTexts.2 ⟨e, he, hc⟩, h'⟩
  | _, _, _, .object t o ns v ⟨l, ho, _, hns⟩ h, _, _, ht => by
    have := readsMap_texts h ht
    subst ho hns
    rcases this with ⟨p, hp, c, hc, h'⟩ | ⟨rfl, p, hp, rfl⟩
    · obtain ⟨q, hq, rfl⟩ := List.mem_map.1 hp
      exact ⟨c, mem_pairsTexts.2 ⟨_, List.mem_map_of_mem hq, .inr hc⟩, h'⟩
    · obtain ⟨q, hq, rfl⟩ := List.mem_map.1 hp
      exact ⟨q.1, mem_pairsTexts.2 ⟨_, List.mem_map_of_mem hq, .inl rfl⟩, rfl, by simp⟩
  | _, _, _, .body t b ns v ⟨_, _, _, he⟩ h, _, _, ht => by
    rcases readsMap_texts h ht with ⟨p, hp, c, hc, h'⟩ | ⟨rfl, p, hp, rfl⟩
    · exact ⟨c, (entryOf_from ((he _ _).1 hp)).1 c hc, h'⟩
    · obtain ⟨c, hc, e⟩ := (entryOf_from ((he _ _).1 hp)).2
      exact ⟨c, hc, e, by simp⟩
  | _, _, _, .block t c b v hu _ h, _, _, ht => by
    obtain ⟨c', hc, h'⟩ := reads_texts h ht
    exact ⟨c', unlabelled_texts hu (by simp) hc, h'⟩
  | _, _, _, .blocks t c bs v hu _ _ h, _, _, ht => by
    obtain ⟨n, hn, c', hc, h'⟩ := readsSeq_texts h ht
    obtain ⟨x, hx, rfl⟩ := List.mem_map.1 hn
    exact ⟨c', unlabelled_texts hu hx hc, h'⟩
  | _, _, _, .someBlock t c v _ h, _, _, ht => reads_texts h ht.some_inv
  | _, _, _, .noBlock .., _, _, ht => by cases ht
  | _, _, _, .keyString s, _, _, ht => by cases ht; exact ⟨s, by simp [nodeTexts], rfl, by simp⟩
  | _, _, _, .keyChar .., _, _, ht => by cases ht
  | _, _, _, .keyEnum .., _, _, ht => by cases ht
  | _, _, _, .ignoredNull, _, _, ht => by cases ht
  | _, _, _, .ignoredBool _, _, _, ht => by cases ht
  | _, _, _, .ignoredInt .., _, _, ht => by cases ht
  | _, _, _, .ignoredFloat .., _, _, ht => by cases ht
  | _, _, _, .ignoredString _, _, _, ht => by cases ht
  | _, _, _, .ignoredKey _, _, _, ht => by cases ht
  | _, _, _, .anyNull, _, _, ht => by cases ht
  | _, _, _, .anyBool _, _, _, ht => by cases ht
  | _, _, _, .anyInt .., _, _, ht => by cases ht
  | _, _, _, .anyFloat .., _, _, ht => by cases ht
  | _, _, _, .anyString s, _, _, ht => by cases ht; exact ⟨s, by simp [nodeTexts, exprTexts], rfl, by simp⟩
  | _, _, _, .anyKey s, _, _, ht => by cases ht; exact ⟨s, by simp [nodeTexts], rfl, by simp⟩

theorem readsSeq_texts {P : F64Parse} {I : F64OfInt} : ∀ {t : Ty} {ns : List Node} {v : DVal}, ReadsSeq P I t ns v →
    ∀ {b : Bool} {x : Str}, HasText t v b x → ∃ n ∈ ns, From n b x
  | _, _, _, .seq t ns vs h, _, _, ht => by
    obtain ⟨v, hv, ht⟩ := ht.seq_inv
    exact readsAll_texts h hv ht
  | _, _, _, .tuple ts ns rest vs h, _, _, ht => by
    obtain ⟨i, t, v, h1, h2, ht⟩ := ht.tuple_inv
    obtain ⟨n, hn, h'⟩ := readsFields_texts h h1 h2 ht
    exact ⟨n, by simp [hn], h'⟩
  | _, _, _, .tupleStruct ts ns rest vs h, _, _, ht => by
    obtain ⟨i, t, v, h1, h2, ht⟩ := ht.tupleStruct_inv
    obtain ⟨n, hn, h'⟩ := readsFields_texts h h1 h2 ht
    exact ⟨n, by simp [hn], h'⟩
  | _, _, _, .struct fs ns rest vs h, _, _, ht => by
    obtain ⟨i, k, k', t, v, h1, h2, ht⟩ := ht.struct_inv
    have h2' : vs[i]? = some v := by
      rw [List.getElem?_zip_eq_some] at h2
      exact h2.2
    obtain ⟨n, hn, h'⟩ := readsFields_texts h (by rw [List.getElem?_map, h1]; rfl) h2' ht
    exact ⟨n, by simp [hn], h'⟩
  | _, _, _, .newtype t n rest v h, _, _, ht => ⟨n, by simp, reads_texts h ht.newtype_inv⟩
  | _, _, _, .ignored .., _, _, ht => by cases ht
  | _, _, _, .any ns vs h, _, _, ht => by
    obtain ⟨v, hv, ht⟩ := ht.anySeq_inv
    exact readsAll_texts h hv ht

theorem readsMap_texts {P : F64Parse} {I : F64OfInt} : ∀ {t : Ty} {ns : List (Str × Node)} {v : DVal}, ReadsMap P I t ns v →
    ∀ {b : Bool} {x : Str}, HasText t v b x → (∃ p ∈ ns, From p.2 b x) ∨ (b = false ∧ ∃ p ∈ ns, p.1 = x)
  | _, _, _, .map t ns vs h, _, _, ht => by
    rcases ht.map_inv with ⟨hb, v, hm⟩ | ⟨k, v, hm, ht⟩
    · exact .inr ⟨hb, readsMap_keys (.map t ns vs h) rfl hm⟩
    · exact .inl (readsEach_texts h hm ht)
  | _, _, _, .struct fs ns vs h _, _, _, ht => by
    obtain ⟨i, k, k', t, v, h1, h2, ht⟩ := ht.struct_inv
    exact .inl (readsStruct_texts h h1 h2 ht)
  | _, _, _, .ignored .., _, _, ht => by cases ht
  | _, _, _, .any ns vs h, _, _, ht => by
    rcases ht.anyMap_inv with ⟨hb, v, hm⟩ | ⟨k, v, hm, ht⟩
    · refine .inr ⟨hb, ?_⟩
      have := List.mem_map_of_mem (f := Prod.fst) hm
      rw [readsEach_keys h] at this
      obtain ⟨p, hp, e⟩ := List.mem_map.1 this
      exact ⟨p, hp, e⟩
    · exact .inl (readsEach_texts h hm ht)

theorem readsAll_texts {P : F64Parse} {I : F64OfInt} : ∀ {t : Ty} {ns : List Node} {vs : List DVal}, ReadsAll P I t ns vs →
    ∀ {v : DVal}, v ∈ vs → ∀ {b : Bool} {x : Str}, HasText t v b x → ∃ n ∈ ns, From n b x
  | _, _, _, .nil _, _, hv, _, _, _ => by simp at hv
  | _, _, _, .cons t n v ns vs h h', w, hv, _, _, ht => by
    rcases List.mem_cons.1 hv with e | hv
    · rw [e] at ht; exact ⟨n, by simp, reads_texts h ht⟩
    · obtain ⟨m, hm, hf⟩ := readsAll_texts h' hv ht
      exact ⟨m, by simp [hm], hf⟩

theorem readsFields_texts {P : F64Parse} {I : F64OfInt} : ∀ {ts : List Ty} {ns : List Node} {vs : List DVal},
    ReadsFields P I ts ns vs → ∀ {i : Nat} {t : Ty} {v : DVal}, ts[i]? = some t → vs[i]? = some v → ∀ {b : Bool} {x : Str},
    HasText t v b x → ∃ n ∈ ns, From n b x
  | _, _, _, .nil, _, _, _, h1, _, _, _, _ => by simp at h1
  | _, _, _, .cons t n v ts ns vs h h', 0, _, _, h1, h2, _, _, ht => by
    simp only [List.getElem?_cons_zero, Option.some.injEq] at h1 h2
    rw [← h1, ← h2] at ht
    exact ⟨n, by simp, reads_texts h ht⟩
  | _, _, _, .cons t n v ts ns vs h h', i + 1, _, _, h1, h2, _, _, ht => by
    simp only [List.getElem?_cons_succ] at h1 h2
    obtain ⟨m, hm, hf⟩ := readsFields_texts h' h1 h2 ht
    exact ⟨m, by simp [hm], hf⟩

theorem readsEach_texts {P : F64Parse} {I : F64OfInt} : ∀ {t : Ty} {ns : List (Str × Node)} {vs : List (Str × DVal)},
    ReadsEach P I t ns vs → ∀ {k : Str} {v : DVal}, (k, v) ∈ vs → ∀ {b : Bool} {x : Str}, HasText t v b x → ∃ p ∈ ns, From p.2 b x
  | _, _, _, .nil _, _, _, hv, _, _, _ => by simp at hv
  | _, _, _, .cons t k n v ns vs h h', k', w, hv, _, _, ht => by
    rcases List.mem_cons.1 hv with e | hv
    · injection e with _ e; rw [e] at ht; exact ⟨_, List.mem_cons_self, reads_texts h ht⟩
    · obtain ⟨m, hm, hf⟩ := readsEach_texts h' hv ht
      exact ⟨m, by simp [hm], hf⟩

theorem readsStruct_texts {P : F64Parse} {I : F64OfInt} : ∀ {fs : List (Str × Ty)} {ns : List (Str × Node)} {vs : List (Str × DVal)},
    ReadsStruct P I fs ns vs → ∀ {i : Nat} {k k' : Str} {t : Ty} {v : DVal}, fs[i]? = some (k, t) → vs[i]? = some (k', v) →
    ∀ {b : Bool} {x : Str}, HasText t v b x → ∃ p ∈ ns, From p.2 b x
  | _, _, _, .nil _, _, _, _, _, _, h1, _, _, _, _ => by simp at h1
  | _, _, _, .present k t n v fs ns vs hm h h', 0, _, _, _, _, h1, h2, _, _, ht => by
    simp only [List.getElem?_cons_zero, Option.some.injEq, Prod.mk.injEq] at h1 h2
    rw [← h1.2, ← h2.2] at ht
    exact ⟨_, hm, reads_texts h ht⟩
  | _, _, _, .present k t n v fs ns vs hm h h', i + 1, _, _, _, _, h1, h2, _, _, ht => by
    simp only [List.getElem?_cons_succ] at h1 h2
    exact readsStruct_texts h' h1 h2 ht
  | _, _, _, .absent k t fs ns vs hk h', 0, _, _, _, _, h1, h2, _, _, ht => by
    simp only [List.getElem?_cons_zero, Option.some.injEq, Prod.mk.injEq] at h1 h2
    rw [← h1.2, ← h2.2] at ht
    cases ht
  | _, _, _, .absent k t fs ns vs hk h', i + 1, _, _, _, _, h1, h2, _, _, ht => by
    simp only [List.getElem?_cons_succ] at h1 h2
    exact readsStruct_texts h' h1 h2 ht
end

end Verif
