import Verif.Proofs.FailureMain
/-! # Which failure is reported: every order of block types is that of some hash map -/
set_option autoImplicit false

namespace Verif
open Spec

variable {P : F64Parse} {I : F64OfInt}

/-- the size of the largest body in a node -/
noncomputable def Node.bodySize : Node → Nat
  | .expr _ => 0
  | .body b => sizeOf b
  | .block c => maxSize (c.flatIter.map Prod.snd)
  | .key _ => 0

/-- the size of the largest body in a map of blocks -/
noncomputable def mapSize (m : Blocks) : Nat := maxSize (m.flatMap fun p => p.2.flatIter.map Prod.snd)

theorem le_mapSize {m : Blocks} {p : CowStr × BlockBody} (hp : p ∈ m) : (Node.block p.2).bodySize ≤ mapSize m := by
  refine maxSize_le fun b hb => le_maxSize ?_
  exact List.mem_flatMap.2 ⟨p, hp, hb⟩

theorem mapSize_lt (b : Body) : mapSize (Blocks.new (blocks b)) < sizeOf b := by
  have hpos : 0 < sizeOf b := by cases b <;> simp <;> omega
  have : mapSize (Blocks.new (blocks b)) ≤ sizeOf b - 1 := by
    refine maxSize_le fun x hx => ?_
    obtain ⟨p, hp, hx⟩ := List.mem_flatMap.1 hx
    obtain ⟨q, hq, rfl⟩ := new_bodies hp hx
    have := block_size hq
    omega
  omega

/-! ## entries of a hash map -/

/-- an entry as a node -/
def blockEntry (p : CowStr × BlockBody) : Str × Node := (p.1.str, .block p.2)

theorem perm_map_lift {α β : Type} {g : α → β} : ∀ {bs : List β} {m : List α}, bs.Perm (m.map g) →
    ∃ l : List α, l.Perm m ∧ bs = l.map g
  | [], m, h => by
    have := List.Perm.nil_eq h
    exact ⟨[], by rw [List.map_eq_nil_iff.1 this.symm], rfl⟩
  | x :: bs, m, h => by
    obtain ⟨p, hp, rfl⟩ := List.mem_map.1 (h.mem_iff.1 List.mem_cons_self)
    obtain ⟨m₁, m₂, rfl⟩ := List.append_of_mem hp
    have h' : (g p :: bs).Perm (g p :: (m₁ ++ m₂).map g) := by
      refine h.trans ?_
      have := (List.perm_middle (a := p) (l₁ := m₁) (l₂ := m₂)).map g
      simpa using this
    obtain ⟨l, hl, rfl⟩ := perm_map_lift (List.Perm.cons_inv h')
    exact ⟨p :: l, (hl.cons p).trans List.perm_middle.symm, rfl⟩

theorem new_entries (b : Body) : BlockEntries b ((Blocks.new (blocks b)).map blockEntry) := by
  refine ⟨by rw [List.map_map]; exact new_nodup _, fun k n => ⟨fun h => ?_, ?_⟩⟩
  · obtain ⟨p, hp, h⟩ := List.mem_map.1 h
    cases h
    obtain ⟨run, h1, h2⟩ := new_mem hp
    exact ⟨run, h1, by rw [← h2]⟩
  · rintro ⟨run, h1, rfl⟩
    obtain ⟨q, hq⟩ : ∃ q ∈ blocks b, q.type.str = k := by
      obtain ⟨pre, post, he, hne, hk, -⟩ := h1
      obtain ⟨q, hq⟩ := List.exists_mem_of_ne_nil _ hne
      exact ⟨q, by rw [he]; simp [hq], hk q hq⟩
    obtain ⟨p, hp, rfl⟩ := List.mem_map.1 (new_types.2 ⟨q, hq⟩)
    obtain ⟨run', h1', h2'⟩ := new_mem hp
    cases lastRun_unique h1 h1'
    exact List.mem_map.2 ⟨p, hp, by simp [blockEntry, h2']⟩

theorem blockEntries_perm {b : Body} {bs bs' : List (Str × Node)} (h : BlockEntries b bs) (h' : BlockEntries b bs') :
    bs.Perm bs' := by
  have hn : ∀ l : List (Str × Node), (l.map Prod.fst).Nodup → l.Nodup := fun l hl =>
    List.Pairwise.of_map _ (fun a b h e => h (by rw [e])) hl
  refine (List.perm_ext_iff_of_nodup (hn _ h.1) (hn _ h'.1)).2 fun p => ?_
  exact (h.2 p.1 p.2).trans (h'.2 p.1 p.2).symm

theorem blockEntries_of_perm {b : Body} {bs bs' : List (Str × Node)} (h : BlockEntries b bs) (h' : bs'.Perm bs) :
    BlockEntries b bs' :=
  ⟨((h'.map _).nodup_iff).2 h.1, fun k n => (h'.mem_iff).trans (h.2 k n)⟩

/-- the block types in any order are in the order of some hash map -/
theorem blockEntries_lift {b : Body} {bs : List (Str × Node)} (h : BlockEntries b bs) :
    ∃ l : Blocks, l.Perm (Blocks.new (blocks b)) ∧ bs = l.map blockEntry :=
  perm_map_lift (blockEntries_perm h (new_entries b))

theorem orderOf_entries {ord : HashOrder} {b : Body} {bs : List (Str × Node)} (h : OrderOf ord b bs) : BlockEntries b bs := by
  rw [h]
  exact blockEntries_of_perm (new_entries b) ((ord.perm _).map blockEntry)

theorem blockEntries_size {b : Body} {bs : List (Str × Node)} (h : BlockEntries b bs) :
    ∀ p ∈ bs, p.2.bodySize ≤ mapSize (Blocks.new (blocks b)) := by
  intro p hp
  obtain ⟨l, hl, rfl⟩ := blockEntries_lift h
  obtain ⟨q, hq, rfl⟩ := List.mem_map.1 hp
  exact le_mapSize (hl.mem_iff.1 hq)

/-! ## orders only matter for the bodies inside -/

theorem attrEntries_size {l : List (CowStr × Expr)} : ∀ p ∈ attrEntries l, p.2.bodySize = 0 := by
  intro p hp
  obtain ⟨q, -, rfl⟩ := List.mem_map.1 hp
  rfl

theorem objectVisit_size {o : List (ObjKey × Expr)} {es : List (Str × Node)} {s : Stop} (h : ObjectVisit o es s) :
    ∀ p ∈ es, p.2.bodySize = 0 := by
  cases h <;> exact attrEntries_size

theorem bodyVisit_size {O : Body → List (Str × Node) → Prop} (hO : ∀ b bs, O b bs → BlockEntries b bs) {b : Body}
    {es : List (Str × Node)} {s : Stop} (h : BodyVisit O b es s) :
    ∀ p ∈ es, p.2.bodySize ≤ mapSize (Blocks.new (blocks b)) := by
  intro p hp
  cases h with
  | all bs hd ho hn =>
    rcases List.mem_append.1 hp with hp | hp
    · rw [attrEntries_size p hp]; exact Nat.zero_le _
    · exact blockEntries_size (hO _ _ ho) p hp
  | again => rw [attrEntries_size p hp]; exact Nat.zero_le _
  | clash bs rest k n hd ho hn hk =>
    rcases List.mem_append.1 hp with hp | hp
    · rw [attrEntries_size p hp]; exact Nat.zero_le _
    · exact blockEntries_size (hO _ _ ho) p (by simp [hp])

theorem bodyVisit_mono {O O' : Body → List (Str × Node) → Prop} {b : Body} {es : List (Str × Node)} {s : Stop}
    (hO : ∀ bs, O b bs → O' b bs) (h : BodyVisit O b es s) : BodyVisit O' b es s := by
  cases h with
  | all bs hd ho hn => exact .all b bs hd (hO _ ho) hn
  | again l rest k e h1 h2 h3 => exact .again b l rest k e h1 h2 h3
  | clash bs rest k n hd ho hn hk => exact .clash b bs rest k n hd (hO _ ho) hn hk

theorem unlabelled_size {c : BlockBody} {bs : List Body} (h : Unlabelled c bs) {b : Body} (hb : b ∈ bs) :
    sizeOf b ≤ (Node.block c).bodySize := by
  refine le_maxSize ?_
  cases h <;> simp [BlockBody.flatIter, BlockBody.flatIterLabels, hb]

section
variable {O O' : Body → List (Str × Node) → Prop} {k : Nat} (hE : ∀ b bs, O b bs → BlockEntries b bs)
  (hO : ∀ b bs, sizeOf b ≤ k → O b bs → O' b bs)
include hE hO

mutual
theorem fails_transfer : ∀ {t : Ty} {n : Node} {F : Failure}, Fails P I O t n F → n.bodySize ≤ k → Fails P I O' t n F
  | _, _, _, .integer t n hw h1 h2, _ => .integer t n hw h1 h2
  | _, _, _, .float t n hw h1 h2, _ => .float t n hw h1 h2
  | _, _, _, .scalar t e hw hs hr, _ => .scalar t e hw hs hr
  | _, _, _, .some t e F he h, _ => .some t e F he (fails_transfer h (Nat.zero_le _))
  | _, _, _, .newtype t e F h, _ => .newtype t e F (fails_transfer h (Nat.zero_le _))
  | _, _, _, .length t ts es ht hl, _ => .length t ts es ht hl
  | _, _, _, .tuple t es F hw ht h, _ => .tuple t es F hw ht (failsSeq_transfer h (by
      intro n hn; obtain ⟨e, -, rfl⟩ := List.mem_map.1 hn; exact Nat.zero_le _))
  | _, _, _, .object t o es s F hw hv h, _ => .object t o es s F hw hv (failsMap_transfer h (by
      intro p hp; rw [objectVisit_size hv p hp]; exact Nat.zero_le _))
  | _, _, _, .body t b es s F hv h, hk => .body t b es s F (bodyVisit_mono (fun bs => hO b bs hk) hv)
      (failsMap_transfer h (by
        intro p hp
        have h1 := bodyVisit_size hE hv p hp
        have h2 := mapSize_lt b
        have h3 : sizeOf b ≤ k := hk
        omega))
  | _, _, _, .labelled t bs m ho hm, _ => .labelled t bs m ho hm
  | _, _, _, .block t c b F hu ho hs h, hk => .block t c b F hu ho hs (fails_transfer h
      (Nat.le_trans (unlabelled_size hu (by simp)) hk))
  | _, _, _, .refused t b, _ => .refused t b
  | _, _, _, .blocks t c bs F hu ho hl hr h, hk => .blocks t c bs F hu ho hl hr (failsSeq_transfer h (by
      intro n hn; obtain ⟨b, hb, rfl⟩ := List.mem_map.1 hn; exact Nat.le_trans (unlabelled_size hu hb) hk))
  | _, _, _, .someBlock t c F hc h, hk => .someBlock t c F hc (fails_transfer h hk)
  | _, _, _, .key t s hr, _ => .key t s hr

theorem failsSeq_transfer : ∀ {t : Ty} {ns : List Node} {F : Failure}, FailsSeq P I O t ns F →
    (∀ n ∈ ns, n.bodySize ≤ k) → FailsSeq P I O' t ns F
  | _, _, _, .item t u pre rest n F hu hr h, hk => .item t u pre rest n F hu hr (fails_transfer h (hk n (by simp)))
  | _, _, _, .tooFew t ns j hj hl hr, _ => .tooFew t ns j hj hl hr
  | _, _, _, .other t ns h, _ => .other t ns h

theorem failsMap_transfer : ∀ {t : Ty} {es : List (Str × Node)} {s : Stop} {F : Failure},
    FailsMap P I O t es s F → (∀ p ∈ es, p.2.bodySize ≤ k) → FailsMap P I O' t es s F
  | _, _, _, _, .entry t u pre rest x n s F hu hr h, hk =>
    .entry t u pre rest x n s F hu hr (fails_transfer h (hk (x, n) (by simp)))
  | _, _, _, _, .stop t es F h hr, _ => .stop t es F h hr
  | _, _, _, _, .missing fs es x t hr h1 h2 h3, _ => .missing fs es x t hr h1 h2 h3
  | _, _, _, _, .other t es s h, _ => .other t es s h
end
end

theorem fails_mono {O O' : Body → List (Str × Node) → Prop} (hE : ∀ b bs, O b bs → BlockEntries b bs)
    (hO : ∀ b bs, O b bs → O' b bs) {t : Ty} {n : Node} {F : Failure} (h : Fails P I O t n F) : Fails P I O' t n F :=
  fails_transfer (k := n.bodySize) hE (fun b bs _ => hO b bs) h (Nat.le_refl _)

/-- an order changed for one map -/
noncomputable def HashOrder.set (ord : HashOrder) (m l : Blocks) (h : l.Perm m) : HashOrder := by
  classical
  exact ⟨fun m' => if m' = m then l else ord.order m', fun m' => by
    by_cases e : m' = m
    · rw [if_pos e, e]; exact h
    · rw [if_neg e]; exact ord.perm m'⟩

theorem HashOrder.set_same (ord : HashOrder) (m l : Blocks) (h : l.Perm m) : (ord.set m l h).order m = l := by
  simp [HashOrder.set]

theorem HashOrder.set_other (ord : HashOrder) (m l : Blocks) (h : l.Perm m) {m' : Blocks} (hm : m' ≠ m) :
    (ord.set m l h).order m' = ord.order m' := by
  simp [HashOrder.set, hm]

/-- the types of one body can be visited in any order, and this does not change the bodies inside -/
theorem set_body {b : Body} {bs : List (Str × Node)} (h : BlockEntries b bs) (ord : HashOrder) :
    ∃ ord' : HashOrder, OrderOf ord' b bs ∧ ∀ b' bs', sizeOf b' ≤ mapSize (Blocks.new (blocks b)) → OrderOf ord b' bs' →
      OrderOf ord' b' bs' := by
  obtain ⟨l, hl, rfl⟩ := blockEntries_lift h
  refine ⟨ord.set _ l hl, by rw [OrderOf, HashOrder.set_same]; rfl, fun b' bs' hs ho => ?_⟩
  rw [OrderOf, HashOrder.set_other]
  · exact ho
  · intro e
    have := mapSize_lt b'
    rw [e] at this
    omega

mutual
theorem fails_order : ∀ {t : Ty} {n : Node} {F : Failure}, Fails P I BlockEntries t n F →
    ∃ ord, Fails P I (OrderOf ord) t n F
  | _, _, _, .integer t n hw h1 h2 => ⟨⟨id, fun _ => .refl _⟩, .integer t n hw h1 h2⟩
  | _, _, _, .float t n hw h1 h2 => ⟨⟨id, fun _ => .refl _⟩, .float t n hw h1 h2⟩
  | _, _, _, .scalar t e hw hs hr => ⟨⟨id, fun _ => .refl _⟩, .scalar t e hw hs hr⟩
  | _, _, _, .some t e F he h => by
    obtain ⟨ord, h⟩ := fails_order h; exact ⟨ord, .some t e F he h⟩
  | _, _, _, .newtype t e F h => by
    obtain ⟨ord, h⟩ := fails_order h; exact ⟨ord, .newtype t e F h⟩
  | _, _, _, .length t ts es ht hl => ⟨⟨id, fun _ => .refl _⟩, .length t ts es ht hl⟩
  | _, _, _, .tuple t es F hw ht h => by
    obtain ⟨ord, h⟩ := failsSeq_order h; exact ⟨ord, .tuple t es F hw ht h⟩
  | _, _, _, .object t o es s F hw hv h => by
    obtain ⟨ord, h⟩ := failsMap_order h; exact ⟨ord, .object t o es s F hw hv h⟩
  | _, _, _, .body t b es s F hv h => by
    obtain ⟨ord, h⟩ := failsMap_order h
    have hs := bodyVisit_size (fun _ _ h => h) hv
    have key : ∀ bs, BlockEntries b bs → (∀ ord' : HashOrder, OrderOf ord' b bs → BodyVisit (OrderOf ord') b es s) →
        ∃ ord, Fails P I (OrderOf ord) t (.body b) F := by
      intro bs hb hv'
      obtain ⟨ord', h1, h2⟩ := set_body hb ord
      exact ⟨ord', .body t b es s F (hv' ord' h1) (failsMap_transfer (fun _ _ => orderOf_entries) h2 h hs)⟩
    cases hv with
    | all bs hd ho hn => exact key bs ho fun ord' h1 => .all b bs hd h1 hn
    | again l rest k e h1 h2 h3 => exact ⟨ord, .body t b _ _ F (.again b l rest k e h1 h2 h3) h⟩
    | clash bs rest k n hd ho hn hk => exact key _ ho fun ord' h1 => .clash b bs rest k n hd h1 hn hk
  | _, _, _, .labelled t bs m ho hm => ⟨⟨id, fun _ => .refl _⟩, .labelled t bs m ho hm⟩
  | _, _, _, .block t c b F hu ho hs h => by
    obtain ⟨ord, h⟩ := fails_order h; exact ⟨ord, .block t c b F hu ho hs h⟩
  | _, _, _, .refused t b => ⟨⟨id, fun _ => .refl _⟩, .refused t b⟩
  | _, _, _, .blocks t c bs F hu ho hl hr h => by
    obtain ⟨ord, h⟩ := failsSeq_order h; exact ⟨ord, .blocks t c bs F hu ho hl hr h⟩
  | _, _, _, .someBlock t c F hc h => by
    obtain ⟨ord, h⟩ := fails_order h; exact ⟨ord, .someBlock t c F hc h⟩
  | _, _, _, .key t s hr => ⟨⟨id, fun _ => .refl _⟩, .key t s hr⟩

theorem failsSeq_order : ∀ {t : Ty} {ns : List Node} {F : Failure}, FailsSeq P I BlockEntries t ns F →
    ∃ ord, FailsSeq P I (OrderOf ord) t ns F
  | _, _, _, .item t u pre rest n F hu hr h => by
    obtain ⟨ord, h⟩ := fails_order h; exact ⟨ord, .item t u pre rest n F hu hr h⟩
  | _, _, _, .tooFew t ns j hj hl hr => ⟨⟨id, fun _ => .refl _⟩, .tooFew t ns j hj hl hr⟩
  | _, _, _, .other t ns h => ⟨⟨id, fun _ => .refl _⟩, .other t ns h⟩

theorem failsMap_order : ∀ {t : Ty} {es : List (Str × Node)} {s : Stop} {F : Failure},
    FailsMap P I BlockEntries t es s F → ∃ ord, FailsMap P I (OrderOf ord) t es s F
  | _, _, _, _, .entry t u pre rest x n s F hu hr h => by
    obtain ⟨ord, h⟩ := fails_order h; exact ⟨ord, .entry t u pre rest x n s F hu hr h⟩
  | _, _, _, _, .stop t es F h hr => ⟨⟨id, fun _ => .refl _⟩, .stop t es F h hr⟩
  | _, _, _, _, .missing fs es x t hr h1 h2 h3 => ⟨⟨id, fun _ => .refl _⟩, .missing fs es x t hr h1 h2 h3⟩
  | _, _, _, _, .other t es s h => ⟨⟨id, fun _ => .refl _⟩, .other t es s h⟩
end

end Verif
