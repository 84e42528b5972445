import Verif.Spec.Alike
import Verif.Proofs.Reads
/-! # Deserialization does not see differences of order and ownership -/
set_option autoImplicit false

namespace Verif
open Spec

variable {P : F64Parse} {I : F64OfInt} {keep : Bool}

theorem Spec.AllRel.map {α β γ δ : Type} {R : α → β → Prop} {S : γ → δ → Prop} {f : α → γ} {g : β → δ} {as : List α} {bs : List β}
    (h : AllRel R as bs) (hi : ∀ a b, R a b → S (f a) (g b)) : AllRel S (as.map f) (bs.map g) := by
  induction h with
  | nil => exact .nil
  | cons a b as bs h _ ih => exact .cons _ _ _ _ (hi a b h) ih

/-! ## numbers -/

theorem str_of_forgetStr {s s' : CowStr} (h : forgetStr s = forgetStr s') : s.str = s'.str := by
  simpa [forgetStr, CowStr.borrowed] using h

theorem asInt_forget (n : Number) (T : IntTy) : (forgetNumber n).asInt T = n.asInt T := rfl

theorem isFloat_forget (n : Number) : (forgetNumber n).isFloat = n.isFloat := by
  rcases n with ⟨i, p, w, f, e⟩
  cases w <;> cases f <;> cases e <;> rfl

theorem isInteger_forget {n n' : Number} (h : forgetNumber n = forgetNumber n') {k : Int} (hi : IsInteger n k) : IsInteger n' k := by
  refine ⟨?_, ?_⟩
  · rw [← isFloat_forget, ← h, isFloat_forget]; exact hi.1
  · rw [← asInt_forget, ← h, asInt_forget]; exact hi.2

theorem floatLit_forget {n n' : Number} (h : forgetNumber n = forgetNumber n') {x : F64} (hi : IsFloat P n x) : IsFloat P n' x := by
  refine ⟨?_, ?_⟩
  · rw [← isFloat_forget, ← h, isFloat_forget]; exact hi.1
  · have : n.input.str = n'.input.str := by
      have := congrArg Number.input h
      exact str_of_forgetStr this
    rw [← this]; exact hi.2

theorem sameNumber_forget {n n' : Number} (h : forgetNumber n = forgetNumber n') : SameNumber P n n' :=
  ⟨fun _ => ⟨isInteger_forget h, isInteger_forget h.symm⟩, fun _ => ⟨floatLit_forget h, floatLit_forget h.symm⟩⟩

theorem isInteger_alike {n n' : Number} (h : SameNumber P n n') {k : Int} (hi : IsInteger n k) : IsInteger n' k := (h.1 k).1 hi

theorem isFloat_alike {n n' : Number} (h : SameNumber P n n') {x : F64} (hi : IsFloat P n x) : IsFloat P n' x := (h.2 x).1 hi

/-! ## lists -/

theorem Spec.AllRel.both {α β : Type} {R S : α → β → Prop} {as : List α} {bs : List β} (h : AllRel R as bs) (h' : AllRel S as bs) :
    AllRel (fun a b => R a b ∧ S a b) as bs := by
  induction h with
  | nil => exact .nil
  | cons a b as bs h _ ih =>
    cases h' with
    | cons _ _ _ _ h1 h2 => exact .cons _ _ _ _ ⟨h, h1⟩ (ih h2)

theorem Spec.AllRel.of_map {α β γ : Type} {f : α → γ} {g : β → γ} : ∀ {as : List α} {bs : List β}, as.map f = bs.map g →
    AllRel (fun a b => f a = g b) as bs
  | [], [], _ => .nil
  | _ :: _, [], h => (by cases h)
  | [], _ :: _, h => (by cases h)
  | _ :: _, _ :: _, h => (by injection h with h1 h2; exact .cons _ _ _ _ h1 (AllRel.of_map h2))

theorem Spec.AllRel.flip {α β : Type} {R : α → β → Prop} {as : List α} {bs : List β} (h : AllRel R as bs) :
    AllRel (fun b a => R a b) bs as := by
  induction h with
  | nil => exact .nil
  | cons a b as bs h _ ih => exact .cons _ _ _ _ h ih

theorem Spec.AllRel.split {α β : Type} {R : α → β → Prop} : ∀ {as as' : List α} {bs : List β}, AllRel R (as ++ as') bs →
    ∃ b b', bs = b ++ b' ∧ AllRel R as b ∧ AllRel R as' b'
  | [], _, bs, h => ⟨[], bs, rfl, .nil, h⟩
  | _ :: _, _, _, h => (by
    cases h with
    | cons _ b _ bs h1 h2 =>
      obtain ⟨c, c', rfl, h3, h4⟩ := AllRel.split h2
      exact ⟨b :: c, c', rfl, .cons _ _ _ _ h1 h3, h4⟩)

theorem Spec.AllRel.getLast {α β : Type} {R : α → β → Prop} {as : List α} {bs : List β} (h : AllRel R as bs) {b : β}
    (hb : bs.getLast? = some b) : ∃ a, as.getLast? = some a ∧ R a b := by
  induction h with
  | nil => cases hb
  | cons a b' as bs h hr ih =>
    cases hr with
    | nil => cases hb; exact ⟨a, rfl, h⟩
    | cons a' b'' as bs h1 h2 =>
      rw [List.getLast?_cons_cons] at hb ⊢
      exact ih hb

/-- the last run of one list of blocks corresponds to that of the other -/
theorem lastRun_alike {R : Block → Block → Prop} (hR : ∀ q q', R q q' → q.type.str = q'.type.str) {name : Str}
    {bs bs' run : List Block} (h : AllRel R bs bs') (hl : LastRun name bs run) :
    ∃ run', LastRun name bs' run' ∧ AllRel R run run' := by
  obtain ⟨pre, post, rfl, hne, hrun, hpost, hpre⟩ := hl
  obtain ⟨x, post', rfl, hx, h3⟩ := h.split
  obtain ⟨pre', run', rfl, h1, h2⟩ := hx.split
  refine ⟨run', ⟨pre', post', rfl, ?_, ?_, ?_, ?_⟩, h2⟩
  · rintro rfl; cases h2; exact hne rfl
  · intro b hb
    obtain ⟨a, ha, hab⟩ := h2.right hb
    rw [← hR a b hab]; exact hrun a ha
  · intro b hb
    obtain ⟨a, ha, hab⟩ := h3.right hb
    rw [← hR a b hab]; exact hpost a ha
  · intro b hb
    obtain ⟨a, ha, hab⟩ := h1.getLast hb
    rw [← hR a b hab]; exact hpre a ha

theorem lastRun_sub {t : Str} {bs run : List Block} (h : LastRun t bs run) :
    (∃ q ∈ bs, q.type.str = t) ∧ ∀ q ∈ run, q ∈ bs := by
  obtain ⟨pre, post, rfl, h2, h3, -⟩ := h
  refine ⟨?_, fun q hq => by simp [hq]⟩
  cases run with
  | nil => exact absurd rfl h2
  | cons q run => exact ⟨q, by simp, h3 q (by simp)⟩

/-- the front of a list, without the longest run of type `t` at its end -/
theorem run_at_end (t : Str) : ∀ bs : List Block, ∃ pre run, bs = pre ++ run ∧ (∀ b ∈ run, b.type.str = t) ∧
    ∀ b, pre.getLast? = some b → b.type.str ≠ t := by
  intro bs
  generalize hn : bs.length = n
  induction n generalizing bs with
  | zero => exact ⟨[], [], by simpa using hn, by simp, by simp⟩
  | succ n ih =>
    rcases List.eq_nil_or_concat bs with rfl | ⟨as, a, rfl⟩
    · cases hn
    · by_cases ha : a.type.str = t
      · obtain ⟨pre, run, rfl, h1, h2⟩ := ih as (by simpa using hn)
        refine ⟨pre, run ++ [a], by simp, ?_, h2⟩
        intro b hb
        rcases List.mem_append.1 hb with hb | hb
        · exact h1 b hb
        · rw [List.mem_singleton.1 hb]; exact ha
      · refine ⟨as ++ [a], [], by simp, by simp, ?_⟩
        intro b hb
        simp at hb
        subst hb; exact ha

theorem lastRun_of_mem {t : Str} : ∀ {bs : List Block}, (∃ q ∈ bs, q.type.str = t) → ∃ run, LastRun t bs run := by
  intro bs
  generalize hn : bs.length = n
  induction n generalizing bs with
  | zero =>
    rintro ⟨q, hq, -⟩
    cases bs with
    | nil => cases hq
    | cons => cases hn
  | succ n ih =>
    rintro ⟨q, hq, ht⟩
    rcases List.eq_nil_or_concat bs with rfl | ⟨as, a, rfl⟩
    · cases hn
    · rw [List.concat_eq_append] at hq hn ⊢
      by_cases ha : a.type.str = t
      · obtain ⟨pre, run, rfl, h1, h2⟩ := run_at_end t as
        refine ⟨run ++ [a], pre, [], by simp, by simp, ?_, by simp, h2⟩
        intro b hb
        rcases List.mem_append.1 hb with hb | hb
        · exact h1 b hb
        · rw [List.mem_singleton.1 hb]; exact ha
      · have hq' : q ∈ as := by
          rcases List.mem_append.1 hq with hq | hq
          · exact hq
          · rw [List.mem_singleton.1 hq] at ht; exact absurd ht ha
        obtain ⟨run, pre, post, rfl, h1, h2, h3, h4⟩ := ih (by simpa using hn) ⟨q, hq', ht⟩
        refine ⟨run, pre, post ++ [a], by simp, h1, h2, ?_, h4⟩
        intro b hb
        rcases List.mem_append.1 hb with hb | hb
        · exact h3 b hb
        · rw [List.mem_singleton.1 hb]; exact ha

theorem regrouped_type {bs bs' : List Block} (h : Regrouped bs bs') {q : Block} (hq : q ∈ bs') :
    ∃ p ∈ bs, p.type.str = q.type.str := by
  obtain ⟨run, hr⟩ := lastRun_of_mem ⟨q, hq, rfl⟩
  exact (lastRun_sub ((h _ _).2 hr)).1

/-- if blocks of one type are adjacent, their last run is all of them -/
theorem lastRun_adjacent {bs : List Block} (h : TypesAdjacent bs) (t : Str) (run : List Block) :
    LastRun t bs run ↔ run ≠ [] ∧ run = bs.filter fun b => decide (b.type.str = t) := by
  have hone : ∀ {run}, LastRun t bs run → run = bs.filter fun b => decide (b.type.str = t) := by
    rintro run ⟨pre, post, rfl, h1, h2, h3, h4⟩
    have hpre : ∀ b ∈ pre, b.type.str ≠ t := by
      intro b hb hbt
      rcases List.eq_nil_or_concat pre with rfl | ⟨as, a, rfl⟩
      · cases hb
      · rw [List.concat_eq_append] at hb h4 h
        have ha : a.type.str ≠ t := h4 a (by simp)
        have hb' : b ∈ as := by
          rcases List.mem_append.1 hb with hb | hb
          · exact hb
          · rw [List.mem_singleton.1 hb] at hbt; exact absurd hbt ha
        obtain ⟨x, y, rfl⟩ := List.append_of_mem hb'
        cases run with
        | nil => exact h1 rfl
        | cons r run =>
          have := h x b (y ++ [a]) r (run ++ post) (by simp) (by rw [hbt, h2 r (by simp)]) a (by simp)
          exact ha (by rw [this, hbt])
    rw [List.filter_append, List.filter_append, List.filter_eq_nil_iff.2 (by simpa using hpre),
      show post.filter (fun b => decide (b.type.str = t)) = [] from List.filter_eq_nil_iff.2 (by simpa using h3), List.filter_eq_self.2 (by simpa using h2)]
    simp
  refine ⟨fun hr => ⟨by obtain ⟨_, _, _, h1, _⟩ := hr; exact h1, hone hr⟩, fun ⟨hne, hr⟩ => ?_⟩
  cases run with
  | nil => exact absurd rfl hne
  | cons q run =>
    have hq : q ∈ bs.filter fun b => decide (b.type.str = t) := by rw [← hr]; simp
    rw [List.mem_filter] at hq
    obtain ⟨run', hr'⟩ := lastRun_of_mem (bs := bs) (t := t) ⟨q, hq.1, by simpa using hq.2⟩
    rw [hr, ← hone hr']; exact hr'

theorem regrouped_adjacent {bs bs' : List Block} (h : TypesAdjacent bs) (h' : TypesAdjacent bs')
    (he : ∀ t, bs.filter (fun b => decide (b.type.str = t)) = bs'.filter fun b => decide (b.type.str = t)) : Regrouped bs bs' := by
  intro t run
  rw [lastRun_adjacent h, lastRun_adjacent h', he t]

/-! ## the blocks of one type -/

theorem fromIter_plain (bs : List Body) : BlockBody.fromIter (bs.map fun b => ([], b)) = .body bs := by
  have : ∀ (bs pre : List Body), BlockBody.extend (.body pre) (bs.map fun b => ([], b)) = .body (pre ++ bs) := by
    intro bs
    induction bs with
    | nil => intro pre; simp [BlockBody.extend]
    | cons b bs ih => intro pre; simp [BlockBody.extend, BlockBody.append, ih]
  exact this bs []

theorem built_fromIter (r : List (List BlockLabel × Body)) : Built (BlockBody.fromIter r) r := by
  simpa [BlockBody.fromIter] using built_extend (l := r) Built.default

/-- the ordinary hash order -/
def ordinary : HashOrder := ⟨id, fun m => List.Perm.refl m⟩

theorem unlabelled_fromIter {r : List (List BlockLabel × Body)} {bs : List Body} (h : Unlabelled (BlockBody.fromIter r) bs) :
    r = bs.map fun b => ([], b) := by
  have hnp : (BlockBody.fromIter r).deserialize ordinary .any ≠ .panic := by
    generalize BlockBody.fromIter r = c at h
    cases h with
    | body bs => cases bs with
      | nil => intro h; cases h
      | cons b bs => cases bs <;> (intro h; cases h)
    | labels bs => cases bs with
      | nil => intro h; cases h
      | cons b bs => cases bs <;> (intro h; cases h)
  have hall : ∀ p ∈ r, p.1 = [] := fun p hp => Classical.byContradiction fun hne =>
    hnp ((Props.c50_labelled (built_fromIter r) ordinary .any (by simp)).2 ⟨p, hp, hne⟩)
  have hr : r = (r.map Prod.snd).map fun b => ([], b) := by
    rw [List.map_map]
    conv => lhs; rw [← List.map_id r]
    refine List.map_congr_left fun p hp => ?_
    rw [← hall p hp]; rfl
  rw [hr, fromIter_plain] at h
  cases h with
  | body => exact hr

theorem lenBlocks_fromIter (r : List (List BlockLabel × Body)) : (BlockBody.fromIter r).lenBlocks = r.length := by
  have := (built_bodies (built_fromIter r)).length_eq
  simpa [lenBlocks_eq] using this

theorem labelsAlike_nil {ls : List BlockLabel} (h : LabelsAlike [] ls) : ls = [] := by
  cases ls with
  | nil => rfl
  | cons => cases h

/-- bodies without labels are alike one by one -/
theorem alike_run {bs : List Body} {r' : List (List BlockLabel × Body)}
    (h1 : AllRel (fun q q' => LabelsAlike q.1 q'.1) (bs.map fun b => (([] : List BlockLabel), b)) r')
    (h2 : AllRel (fun q q' => Alike P keep (.body q.2) (.body q'.2)) (bs.map fun b => (([] : List BlockLabel), b)) r') :
    ∃ bs' : List Body, r' = (bs'.map fun b => ([], b)) ∧ AllRel (Alike P keep) (bs.map .body) (bs'.map .body) := by
  induction bs generalizing r' with
  | nil => cases h1; exact ⟨[], rfl, .nil⟩
  | cons b bs ih =>
    cases h1 with
    | cons _ q' _ r'' h3 h4 =>
      cases h2 with
      | cons _ _ _ _ h5 h6 =>
        obtain ⟨bs', rfl, h7⟩ := ih h4 h6
        obtain ⟨ls, b'⟩ := q'
        have : ls = [] := labelsAlike_nil h3
        subst this
        exact ⟨b' :: bs', rfl, .cons _ _ _ _ h5 h7⟩

/-- a permutation of a mapped list is a mapped permutation -/
theorem perm_map_exists {α β : Type} {f : α → β} {l : List α} {m : List β} (h : (l.map f).Perm m) :
    ∃ l', m = l'.map f ∧ l.Perm l' := by
  generalize hz : l.map f = z at h
  induction h generalizing l with
  | nil => cases l with
    | nil => exact ⟨[], rfl, .refl _⟩
    | cons => cases hz
  | cons x _ ih => cases l with
    | nil => cases hz
    | cons a l =>
      injection hz with h1 h2
      obtain ⟨l', rfl, hp⟩ := ih h2
      exact ⟨a :: l', by rw [← h1]; rfl, hp.cons a⟩
  | swap x y m => match l, hz with
    | [], hz => cases hz
    | [_], hz => cases hz
    | a :: b :: l, hz =>
      injection hz with h1 h2
      injection h2 with h2 h3
      exact ⟨b :: a :: l, by rw [← h1, ← h2, ← h3]; rfl, .swap _ _ _⟩
  | trans _ _ ih1 ih2 =>
    obtain ⟨l1, h1, hp1⟩ := ih1 hz
    obtain ⟨l2, h2, hp2⟩ := ih2 h1.symm
    exact ⟨l2, h2, hp1.trans hp2⟩

/-- with different keys, equal keys mean equal entries -/
theorem nodup_key {α β : Type} {f : α → β} {l : List α} (h : (l.map f).Nodup) {a b : α} (ha : a ∈ l) (hb : b ∈ l)
    (hf : f a = f b) : a = b := by
  induction l with
  | nil => cases ha
  | cons x l ih =>
    rw [List.map_cons, List.nodup_cons] at h
    rcases List.mem_cons.1 ha with rfl | ha <;> rcases List.mem_cons.1 hb with rfl | hb
    · rfl
    · exact absurd (List.mem_map.2 ⟨b, hb, hf.symm⟩) h.1
    · exact absurd (List.mem_map.2 ⟨a, ‹_›, hf⟩) h.1
    · exact ih h.2 ha hb

/-! ## entries -/

/-- entries with the same name and alike nodes -/
abbrev AlikeEntry (P : F64Parse) (keep : Bool) (p q : Str × Node) : Prop := p.1 = q.1 ∧ Alike P keep p.2 q.2

theorem entry_alike {b b' : Body} (h : Alike P keep (.body b) (.body b')) {k : Str} {n : Node} (he : EntryOf b k n) :
    ∃ n', EntryOf b' k n' ∧ Alike P keep n n' := by
  cases h with
  | body _ _ as run' hk ha hp h1 _ hq hb =>
    rcases he with ⟨c, e, hm, rfl, rfl⟩ | ⟨run, hl, rfl⟩
    · obtain ⟨q, hq', h1, h2⟩ := ((AllRel.of_map hk).both ha).left hm
      exact ⟨.expr q.2, .inl ⟨q.1, q.2, hp.mem_iff.1 hq', h1.symm, rfl⟩, h2⟩
    · refine ⟨_, .inr ⟨run' k, h1 k run hl, rfl⟩, .block _ _ ?_ ?_⟩
      · exact (hq k run hl).map fun q q' h => h
      · exact (hb k run hl).map fun q q' h => h

theorem entry_alike_back {b b' : Body} (h : Alike P keep (.body b) (.body b')) {k : Str} {n : Node} (he : EntryOf b' k n) :
    ∃ n', EntryOf b k n' := by
  cases h with
  | body _ _ as run' hk ha hp _ h2 hq hb =>
    rcases he with ⟨c, e, hm, rfl, rfl⟩ | ⟨run, hl, rfl⟩
    · obtain ⟨q, hq', h1, h2⟩ := ((AllRel.of_map hk).both ha).right (hp.mem_iff.2 hm)
      exact ⟨.expr q.2, .inl ⟨q.1, q.2, hq', h1, rfl⟩⟩
    · obtain ⟨r, h1⟩ := h2 k run hl
      exact ⟨_, .inr ⟨r, h1, rfl⟩⟩

theorem entry_unique {b : Body} (hd : Distinct (attrs b)) (hc : ¬ NameClash b) {k : Str} {n n' : Node} (h : EntryOf b k n)
    (h' : EntryOf b k n') : n = n' := by
  obtain ⟨es, hD⟩ := drained_exists ordinary hd hc
  obtain ⟨h1, -, -, h2⟩ := drained_entry hD
  obtain ⟨p, hp, hk, rfl⟩ := (h2 k n).2 h
  obtain ⟨q, hq, hk', rfl⟩ := (h2 k n').2 h'
  have : p = q := nodup_key h1 hp hq (by rw [hk, hk'])
  rw [this]

theorem bodyEntries_alike {b b' : Body} (h : Alike P keep (.body b) (.body b')) {ns : List (Str × Node)} (he : BodyEntries b ns) :
    ∃ ns', BodyEntries b' ns' ∧ AllRel (AlikeEntry P keep) ns ns' := by
  obtain ⟨hd, hc, hn, hmem⟩ := he
  have hd' : Distinct (attrs b') := by
    cases h with
    | body _ _ as run' hk ha hp h1 h2 hq hb =>
      have hdn : ((attrs b).map fun p => p.1.str).Nodup := hd
      rw [hk] at hdn
      exact (hp.map _).nodup_iff.1 hdn
  have hc' : ¬ NameClash b' := by
    rintro ⟨p, hp', q, hq', heq⟩
    cases h with
    | body _ _ as run' hk ha hp h1 h2 hq hb =>
      obtain ⟨p0, hp0, h1⟩ := (AllRel.of_map hk).right (hp.mem_iff.2 hp')
      obtain ⟨r', hr'⟩ := lastRun_of_mem ⟨q, hq', rfl⟩
      obtain ⟨r, hr⟩ := h2 _ _ hr'
      obtain ⟨q0, hq0, h3⟩ := (lastRun_sub hr).1
      exact hc ⟨p0, hp0, q0, hq0, by rw [h1, h3, heq]⟩
  have hex : ∀ p ∈ ns, ∃ q : Str × Node, AlikeEntry P keep p q ∧ EntryOf b' q.1 q.2 := fun p hp => by
    obtain ⟨n', h1, h2⟩ := entry_alike h ((hmem p.1 p.2).1 hp)
    exact ⟨(p.1, n'), ⟨rfl, h2⟩, h1⟩
  obtain ⟨ns', hr⟩ := AllRel.exists_of hex
  have hkeys : ns.map Prod.fst = ns'.map Prod.fst := by
    clear hmem hn hex
    induction hr with
    | nil => rfl
    | cons a b as bs h _ ih => rw [List.map_cons, List.map_cons, ih, h.1.1]
  refine ⟨ns', ⟨hd', hc', by rw [← hkeys]; exact hn, fun k n => ⟨fun hm => ?_, fun hm => ?_⟩⟩, hr.imp fun p q _ _ h => h.1⟩
  · obtain ⟨p, hp, h1⟩ := hr.right hm
    exact h1.2
  · obtain ⟨n0, h0⟩ := entry_alike_back h hm
    obtain ⟨q, hq, h1⟩ := hr.left ((hmem k n0).2 h0)
    obtain ⟨k', n'⟩ := q
    have hk' : k = k' := h1.1.1
    subst hk'
    rw [entry_unique hd' hc' hm h1.2]; exact hq

theorem objectEntries_alike {o o' : List (ObjKey × Expr)} (h : Alike P keep (.expr (.object o)) (.expr (.object o')))
    {ns : List (Str × Node)} (he : ObjectEntries o ns) :
    ∃ ms ns', ObjectEntries o' ns' ∧ AllRel (AlikeEntry P keep) ns ms ∧ ms.Perm ns' := by
  obtain ⟨l, rfl, hd, rfl⟩ := he
  cases h with
  | object _ o1 _ hk ha hp =>
    have : ∃ l1 : List (CowStr × Expr), o1 = l1.map (fun p => (.ident p.1, p.2)) ∧
        AllRel (fun p q => p.1.str = q.1.str ∧ Alike P keep (.expr p.2) (.expr q.2)) l l1 := by
      clear hp hd
      induction l generalizing o1 with
      | nil => cases ha; exact ⟨[], rfl, .nil⟩
      | cons p l ih =>
        cases ha with
        | cons _ q _ o2 h1 h2 =>
          injection hk with hk1 hk2
          obtain ⟨l1, rfl, h3⟩ := ih _ hk2 h2
          obtain ⟨k, e⟩ := q
          cases k with
          | ident s => exact ⟨(s, e) :: l1, rfl, .cons _ _ _ _ ⟨by simpa [forgetKey, forgetStr, CowStr.borrowed] using hk1, h1⟩ h3⟩
          | expr s => cases hk1
    obtain ⟨l1, rfl, hr⟩ := this
    obtain ⟨l2, rfl, hp2⟩ := perm_map_exists hp
    refine ⟨l1.map fun p => (p.1.str, .expr p.2), l2.map fun p => (p.1.str, .expr p.2), ⟨l2, rfl, ?_, rfl⟩,
      hr.map fun p q h => h, hp2.map _⟩
    have hkeys : l.map (fun p => p.1.str) = l1.map fun p => p.1.str := by
      clear hp2 hp hd hk ha
      induction hr with
      | nil => rfl
      | cons a b as bs h _ ih => rw [List.map_cons, List.map_cons, ih, h.1]
    have hdn : (l.map fun p => p.1.str).Nodup := hd
    rw [hkeys] at hdn
    exact (hp2.map _).nodup_iff.1 hdn

/-! ## lists of entries in another order -/

theorem readsEach_perm {t : Ty} {ns ns' : List (Str × Node)} (hp : ns.Perm ns') : ∀ {vs : List (Str × DVal)},
    ReadsEach P I t ns vs → ∃ vs', ReadsEach P I t ns' vs' ∧ vs.Perm vs' := by
  induction hp with
  | nil => intro vs h; exact ⟨vs, h, .refl _⟩
  | cons x _ ih =>
    intro vs h
    cases h with
    | cons _ k n v _ vs h1 h2 =>
      obtain ⟨vs', h3, h4⟩ := ih h2
      exact ⟨_, .cons _ _ _ _ _ _ h1 h3, h4.cons _⟩
  | swap x y l =>
    intro vs h
    cases h with
    | cons _ k n v _ vs h1 h2 =>
      cases h2 with
      | cons _ k' n' v' _ vs h3 h4 =>
        exact ⟨_, .cons _ _ _ _ _ _ h3 (.cons _ _ _ _ _ _ h1 h4), .swap _ _ _⟩
  | trans _ _ ih1 ih2 =>
    intro vs h
    obtain ⟨vs1, h1, h2⟩ := ih1 h
    obtain ⟨vs2, h3, h4⟩ := ih2 h1
    exact ⟨vs2, h3, h2.trans h4⟩

theorem readsExtra_of {fs : List (Str × Ty)} : ∀ {ns : List (Str × Node)},
    (∀ k n, (k, n) ∈ ns → k ∉ fs.map Prod.fst → ∃ v, Reads P I .ignored n v) → ReadsExtra P I fs ns
  | [], _ => .nil fs
  | (k, n) :: ns, h => by
    have ht := readsExtra_of (ns := ns) fun k' n' hm => h k' n' (by simp [hm])
    by_cases hk : k ∈ fs.map Prod.fst
    · exact .declared _ _ _ _ hk ht
    · obtain ⟨v, hv⟩ := h k n (by simp) hk
      exact .extra _ _ _ v _ hk hv ht

/-! ## the main induction -/

/-- ownership is kept, or the type does not see it -/
abbrev Sees (keep : Bool) (t : Ty) : Prop := keep = true ∨ StrFree t

theorem Sees.part {t t' : Ty} (h : Sees keep t) (hs : StrFree t → StrFree t') : Sees keep t' := h.imp id hs

mutual
theorem reads_alike : ∀ {t : Ty} {n : Node} {v : DVal}, Reads P I t n v → Sees keep t → ∀ {n' : Node}, Alike P keep n n' →
    ∃ v', Reads P I t n' v' ∧ SameVal v v'
  | _, _, _, .unit, _, _, ha => by cases ha; exact ⟨_, .unit, .refl _⟩
  | _, _, _, .unitStruct, _, _, ha => by cases ha; exact ⟨_, .unitStruct, .refl _⟩
  | _, _, _, .bool b, _, _, ha => by cases ha; exact ⟨_, .bool b, .refl _⟩
  | _, _, _, .int T n k hk h1 h2, _, _, ha => by
    cases ha with
    | number _ n' hn => exact ⟨_, .int T n' k (isInteger_alike hn hk) h1 h2, .refl _⟩
  | _, _, _, .float n x hx, _, _, ha => by
    cases ha with
    | number _ n' hn => exact ⟨_, .float n' x (isFloat_alike hn hx), .refl _⟩
  | _, _, _, .floatOfInt n k hk, _, _, ha => by
    cases ha with
    | number _ n' hn => exact ⟨_, .floatOfInt n' k (isInteger_alike hn hk), .refl _⟩
  | _, _, _, .float32 n x hx, _, _, ha => by
    cases ha with
    | number _ n' hn => exact ⟨_, .float32 n' x (isFloat_alike hn hx), .refl _⟩
  | _, _, _, .float32OfInt n k hk, _, _, ha => by
    cases ha with
    | number _ n' hn => exact ⟨_, .float32OfInt n' k (isInteger_alike hn hk), .refl _⟩
  | _, _, _, .string s, _, _, ha => by
    cases ha with
    | string _ s' hs _ => exact ⟨_, .string s', by rw [hs]; exact .refl _⟩
  | _, _, _, .str s, hk, _, ha => by
    cases ha with
    | string _ s' hs ho =>
      rcases hk with hk | hk
      · have ho' := ho hk
        obtain ⟨o, x⟩ := s'
        cases ho'
        cases hs
        exact ⟨_, .str s, .refl _⟩
      · cases hk
  | _, _, _, .char s c hc, _, _, ha => by
    cases ha with
    | string _ s' hs _ => exact ⟨_, .char s' c (by rw [← hs]; exact hc), .refl _⟩
  | _, _, _, .none t, _, _, ha => by cases ha; exact ⟨_, .none t, .refl _⟩
  | _, _, _, .some t e v he h, hk, n', ha => by
    obtain ⟨v', h1, h2⟩ := reads_alike h (hk.part fun h => by cases h; assumption) ha
    have : ∃ e', n' = .expr e' ∧ e' ≠ .null := by
      cases ha with
      | null => exact absurd rfl he
      | boolean => exact ⟨_, rfl, by simp⟩
      | number => exact ⟨_, rfl, by simp⟩
      | string => exact ⟨_, rfl, by simp⟩
      | tuple => exact ⟨_, rfl, by simp⟩
      | object => exact ⟨_, rfl, by simp⟩
    obtain ⟨e', rfl, he'⟩ := this
    exact ⟨_, .some t e' v' he' h1, .some _ _ h2⟩
  | _, _, _, .newtype t e v h, hk, n', ha => by
    obtain ⟨v', h1, h2⟩ := reads_alike h (hk.part fun h => by cases h; assumption) ha
    have : ∃ e', n' = .expr e' := by cases ha <;> exact ⟨_, rfl⟩
    obtain ⟨e', rfl⟩ := this
    exact ⟨_, .newtype t e' v' h1, h2⟩
  | _, _, _, .tuple t es v hl hn h, hk, n', ha => by
    cases ha with
    | tuple _ es' hr =>
      obtain ⟨v', h1, h2⟩ := readsSeq_alike h hk (hr.map (f := Node.expr) (g := Node.expr) fun a b h => h)
      exact ⟨v', .tuple t es' v' (fun ts hts => by rw [← hr.length]; exact hl ts hts) hn h1, h2⟩
  | _, _, _, .object t o ns v he h, hk, n', ha => by
    obtain ⟨o', rfl⟩ : ∃ o', n' = .expr (.object o') := by cases ha; exact ⟨_, rfl⟩
    obtain ⟨ms, ns', h1, h2, h3⟩ := objectEntries_alike ha he
    obtain ⟨v', h4, h5⟩ := readsMap_alike h hk h2 h3
    exact ⟨v', .object t o' ns' v' h1 h4, h5⟩
  | _, _, _, .body t b ns v he h, hk, n', ha => by
    obtain ⟨b', rfl⟩ : ∃ b', n' = .body b' := by cases ha; exact ⟨_, rfl⟩
    obtain ⟨ns', h1, h2⟩ := bodyEntries_alike ha he
    obtain ⟨v', h4, h5⟩ := readsMap_alike h hk h2 (.refl _)
    exact ⟨v', .body t b' ns' v' h1 h4, h5⟩
  | _, _, _, .block t c b v hu hs h, hk, n', ha => by
    cases ha with
    | block r r' hl hb =>
      have hr := unlabelled_fromIter hu
      subst hr
      obtain ⟨bs', rfl, h1⟩ := alike_run hl hb
      have hlen : bs'.length = 1 := by simpa using h1.length.symm
      obtain ⟨b', rfl⟩ := List.length_eq_one_iff.1 hlen
      cases h1 with
      | cons _ _ _ _ h2 _ =>
        obtain ⟨v', h3, h4⟩ := reads_alike h hk h2
        exact ⟨v', .block t _ b' v' (by rw [fromIter_plain]; exact .body _) hs h3, h4⟩
  | _, _, _, .blocks t c bs v hu hl hr h, hk, n', ha => by
    cases ha with
    | block r r' hla hb =>
      have hr' := unlabelled_fromIter hu
      subst hr'
      obtain ⟨bs', rfl, h1⟩ := alike_run hla hb
      obtain ⟨v', h2, h3⟩ := readsSeq_alike h hk h1
      have hlen : bs.length = bs'.length := by simpa using h1.length
      refine ⟨v', .blocks t _ bs' v' ?_ (by rw [← hlen]; exact hl) ?_ h2, h3⟩
      · rw [fromIter_plain]; exact .body _
      · rw [fromIter_plain]; rintro ⟨-, b, m, hm⟩; cases hm
  | _, _, _, .someBlock t c v hl h, hk, n', ha => by
    obtain ⟨v', h1, h2⟩ := reads_alike h (hk.part fun h => by cases h; assumption) ha
    cases ha with
    | block r r' hla hb =>
      refine ⟨_, .someBlock t _ v' ?_ h1, .some _ _ h2⟩
      rw [lenBlocks_fromIter] at hl ⊢
      rw [← hla.length]; exact hl
  | _, _, _, .noBlock t c hl, _, _, ha => by
    cases ha with
    | block r r' hla hb =>
      refine ⟨_, .noBlock t _ ?_, .refl _⟩
      rw [lenBlocks_fromIter] at hl ⊢
      rw [← hla.length]; exact hl
  | _, _, _, .keyString s, _, _, ha => by
    cases ha with
    | key _ s' hs => exact ⟨_, .keyString s', by rw [hs]; exact .refl _⟩
  | _, _, _, .keyChar s c hc, _, _, ha => by
    cases ha with
    | key _ s' hs => exact ⟨_, .keyChar s' c (by rw [← hs]; exact hc), .refl _⟩
  | _, _, _, .keyEnum s vs hv, _, _, ha => by
    cases ha with
    | key _ s' hs => exact ⟨_, .keyEnum s' vs (by rw [← hs]; exact hv), by rw [hs]; exact .refl _⟩
  | _, _, _, .ignoredNull, _, _, ha => by cases ha; exact ⟨_, .ignoredNull, .refl _⟩
  | _, _, _, .ignoredBool b, _, _, ha => by cases ha; exact ⟨_, .ignoredBool b, .refl _⟩
  | _, _, _, .ignoredInt n k hk, _, _, ha => by
    cases ha with
    | number _ n' hn => exact ⟨_, .ignoredInt n' k (isInteger_alike hn hk), .refl _⟩
  | _, _, _, .ignoredFloat n x hx, _, _, ha => by
    cases ha with
    | number _ n' hn => exact ⟨_, .ignoredFloat n' x (isFloat_alike hn hx), .refl _⟩
  | _, _, _, .ignoredString s, _, _, ha => by
    cases ha with
    | string _ s' _ _ => exact ⟨_, .ignoredString s', .refl _⟩
  | _, _, _, .ignoredKey s, _, _, ha => by
    cases ha with
    | key _ s' _ => exact ⟨_, .ignoredKey s', .refl _⟩
  | _, _, _, .anyNull, _, _, ha => by cases ha; exact ⟨_, .anyNull, .refl _⟩
  | _, _, _, .anyBool b, _, _, ha => by cases ha; exact ⟨_, .anyBool b, .refl _⟩
  | _, _, _, .anyInt n k hk, _, _, ha => by
    cases ha with
    | number _ n' hn => exact ⟨_, .anyInt n' k (isInteger_alike hn hk), .refl _⟩
  | _, _, _, .anyFloat n x hx, _, _, ha => by
    cases ha with
    | number _ n' hn => exact ⟨_, .anyFloat n' x (isFloat_alike hn hx), .refl _⟩
  | _, _, _, .anyString s, _, _, ha => by
    cases ha with
    | string _ s' hs _ => exact ⟨_, .anyString s', by rw [hs]; exact .refl _⟩
  | _, _, _, .anyKey s, _, _, ha => by
    cases ha with
    | key _ s' hs => exact ⟨_, .anyKey s', by rw [hs]; exact .refl _⟩
  | _, _, _, .bytesString u s, _, _, ha => by
    cases ha with
    | string _ s' hs _ => exact ⟨_, .bytesString u s', by rw [hs]; exact .refl _⟩
  | _, _, _, .bytesKey u s, _, _, ha => by
    cases ha with
    | key _ s' hs => exact ⟨_, .bytesKey u s', by rw [hs]; exact .refl _⟩

theorem readsSeq_alike : ∀ {t : Ty} {ns : List Node} {v : DVal}, ReadsSeq P I t ns v → Sees keep t → ∀ {ns' : List Node},
    AllRel (Alike P keep) ns ns' → ∃ v', ReadsSeq P I t ns' v' ∧ SameVal v v'
  | _, _, _, .seq t ns vs h, hk, _, ha => by
    obtain ⟨vs', h1, h2⟩ := readsAll_alike h (hk.part fun h => by cases h; assumption) ha
    exact ⟨_, .seq t _ vs' h1, .seq _ _ h2.length h2.zip⟩
  | _, _, _, .tuple ts ns rest vs h, hk, _, ha => by
    obtain ⟨ms, rest', rfl, h1, -⟩ := ha.split
    obtain ⟨vs', h2, h3⟩ := readsFields_alike h (fun t ht => hk.part fun h => by cases h with | tuple _ h => exact h t ht) h1
    exact ⟨_, .tuple ts _ _ vs' h2, .seq _ _ h3.length h3.zip⟩
  | _, _, _, .tupleStruct ts ns rest vs h, hk, _, ha => by
    obtain ⟨ms, rest', rfl, h1, -⟩ := ha.split
    obtain ⟨vs', h2, h3⟩ := readsFields_alike h (fun t ht => hk.part fun h => by cases h with | tupleStruct _ h => exact h t ht) h1
    exact ⟨_, .tupleStruct ts _ _ vs' h2, .seq _ _ h3.length h3.zip⟩
  | _, _, _, .struct fs ns rest vs h, hk, _, ha => by
    obtain ⟨ms, rest', rfl, h1, -⟩ := ha.split
    obtain ⟨vs', h2, h3⟩ := readsFields_alike h (fun t ht => hk.part fun h => by
      cases h with
      | struct _ h =>
        obtain ⟨f, hf, rfl⟩ := List.mem_map.1 ht
        exact h f hf) h1
    exact ⟨_, .struct fs _ _ vs' h2, sameVal_entries (zip_names h3) (.refl _)⟩
  | _, _, _, .newtype t n rest v h, hk, _, ha => by
    cases ha with
    | cons _ n' _ rest' h1 h2 =>
      obtain ⟨v', h3, h4⟩ := reads_alike h (hk.part fun h => by cases h; assumption) h1
      exact ⟨v', .newtype t n' rest' v' h3, h4⟩
  | _, _, _, .ignored ns vs h, hk, _, ha => by
    obtain ⟨vs', h1, h2⟩ := readsAll_alike h hk ha
    exact ⟨_, .ignored _ vs' h1, .refl _⟩
  | _, _, _, .any ns vs h, hk, _, ha => by
    obtain ⟨vs', h1, h2⟩ := readsAll_alike h hk ha
    exact ⟨_, .any _ vs' h1, .seq _ _ h2.length h2.zip⟩
  | _, _, _, .bytes u ns vs h, hk, _, ha => by
    obtain ⟨vs', h1, h2⟩ := readsAll_alike h (hk.part fun _ => .int _) ha
    exact ⟨_, .bytes u _ vs' h1, .seq _ _ h2.length h2.zip⟩

theorem readsMap_alike : ∀ {t : Ty} {ns : List (Str × Node)} {v : DVal}, ReadsMap P I t ns v → Sees keep t →
    ∀ {ms ns' : List (Str × Node)}, AllRel (AlikeEntry P keep) ns ms → ms.Perm ns' → ∃ v', ReadsMap P I t ns' v' ∧ SameVal v v'
  | _, _, _, .map t ns vs h, hk, _, _, ha, hp => by
    obtain ⟨vs', h1, h2⟩ := readsEach_alike h (hk.part fun h => by cases h; assumption) ha
    obtain ⟨vs'', h3, h4⟩ := readsEach_perm hp h1
    exact ⟨_, .map t _ vs'' h3, sameVal_entries h2 h4⟩
  | _, _, _, .ignored ns vs h, hk, _, _, ha, hp => by
    obtain ⟨vs', h1, h2⟩ := readsEach_alike h hk ha
    obtain ⟨vs'', h3, h4⟩ := readsEach_perm hp h1
    exact ⟨_, .ignored _ vs'' h3, .refl _⟩
  | _, _, _, .any ns vs h, hk, _, _, ha, hp => by
    obtain ⟨vs', h1, h2⟩ := readsEach_alike h hk ha
    obtain ⟨vs'', h3, h4⟩ := readsEach_perm hp h1
    exact ⟨_, .any _ vs'' h3, sameVal_entries h2 h4⟩
  | _, _, _, .struct fs ns vs h h', hk, ms, ns', ha, hp => by
    have hm : ∀ k n, (k, n) ∈ ns → ∃ n', (k, n') ∈ ns' ∧ Alike P keep n n' := fun k n hn => by
      obtain ⟨⟨k', n'⟩, hq, h1, h2⟩ := ha.left hn
      cases h1
      exact ⟨n', hp.mem_iff.1 hq, h2⟩
    have hb : ∀ k n', (k, n') ∈ ns' → ∃ n, (k, n) ∈ ns ∧ Alike P keep n n' := fun k n' hn => by
      obtain ⟨⟨k', n⟩, hq, h1, h2⟩ := ha.right (hp.mem_iff.2 hn)
      cases h1
      exact ⟨n, hq, h2⟩
    obtain ⟨vs', h1, h2⟩ := readsStruct_alike h (fun f hf => hk.part fun h => by cases h with | struct _ h => exact h f hf) hm
      (fun k hk hk' => by
        obtain ⟨⟨k', n'⟩, hq, rfl⟩ := List.mem_map.1 hk'
        obtain ⟨n, hn, -⟩ := hb _ _ hq
        exact hk (List.mem_map.2 ⟨_, hn, rfl⟩))
    refine ⟨_, .struct fs _ vs' h1 (readsExtra_of fun k n' hn hk => ?_), sameVal_entries h2 (.refl _)⟩
    obtain ⟨n, hn', hal⟩ := hb k n' hn
    exact readsExtra_alike h' k n hn' hk hal

theorem readsAll_alike : ∀ {t : Ty} {ns : List Node} {vs : List DVal}, ReadsAll P I t ns vs → Sees keep t →
    ∀ {ns' : List Node}, AllRel (Alike P keep) ns ns' → ∃ vs', ReadsAll P I t ns' vs' ∧ AllRel SameVal vs vs'
  | _, _, _, .nil t, _, _, ha => by cases ha; exact ⟨[], .nil t, .nil⟩
  | _, _, _, .cons t n v ns vs h h', hk, _, ha => by
    cases ha with
    | cons _ n' _ ns' h1 h2 =>
      obtain ⟨v', h3, h4⟩ := reads_alike h hk h1
      obtain ⟨vs', h5, h6⟩ := readsAll_alike h' hk h2
      exact ⟨v' :: vs', .cons _ _ _ _ _ h3 h5, .cons _ _ _ _ h4 h6⟩

theorem readsFields_alike : ∀ {ts : List Ty} {ns : List Node} {vs : List DVal}, ReadsFields P I ts ns vs →
    (∀ t ∈ ts, Sees keep t) → ∀ {ns' : List Node}, AllRel (Alike P keep) ns ns' →
    ∃ vs', ReadsFields P I ts ns' vs' ∧ AllRel SameVal vs vs'
  | _, _, _, .nil, _, _, ha => by cases ha; exact ⟨[], .nil, .nil⟩
  | _, _, _, .cons t n v ts ns vs h h', hk, _, ha => by
    cases ha with
    | cons _ n' _ ns' h1 h2 =>
      obtain ⟨v', h3, h4⟩ := reads_alike h (hk t (by simp)) h1
      obtain ⟨vs', h5, h6⟩ := readsFields_alike h' (fun t ht => hk t (by simp [ht])) h2
      exact ⟨v' :: vs', .cons _ _ _ _ _ _ h3 h5, .cons _ _ _ _ h4 h6⟩

theorem readsEach_alike : ∀ {t : Ty} {ns : List (Str × Node)} {vs : List (Str × DVal)}, ReadsEach P I t ns vs → Sees keep t →
    ∀ {ms : List (Str × Node)}, AllRel (AlikeEntry P keep) ns ms → ∃ vs', ReadsEach P I t ms vs' ∧ AllRel SameEntry vs vs'
  | _, _, _, .nil t, _, _, ha => by cases ha; exact ⟨[], .nil t, .nil⟩
  | _, _, _, .cons t k n v ns vs h h', hk, _, ha => by
    cases ha with
    | cons _ q _ ms h1 h2 =>
      obtain ⟨k', n'⟩ := q
      obtain ⟨hk', h1⟩ := h1
      cases hk'
      obtain ⟨v', h3, h4⟩ := reads_alike h hk h1
      obtain ⟨vs', h5, h6⟩ := readsEach_alike h' hk h2
      exact ⟨(k, v') :: vs', .cons _ _ _ _ _ _ h3 h5, .cons _ _ _ _ ⟨rfl, h4⟩ h6⟩

theorem readsStruct_alike : ∀ {fs : List (Str × Ty)} {ns : List (Str × Node)} {vs : List (Str × DVal)},
    ReadsStruct P I fs ns vs → (∀ f ∈ fs, Sees keep f.2) → ∀ {ns' : List (Str × Node)},
    (∀ k n, (k, n) ∈ ns → ∃ n', (k, n') ∈ ns' ∧ Alike P keep n n') →
    (∀ k, k ∉ ns.map Prod.fst → k ∉ ns'.map Prod.fst) → ∃ vs', ReadsStruct P I fs ns' vs' ∧ AllRel SameEntry vs vs'
  | _, _, _, .nil ns, _, ns', _, _ => ⟨[], .nil ns', .nil⟩
  | _, _, _, .present k t n v fs ns vs hm h h', hk, ns', ha, hb => by
    obtain ⟨n', hn', hal⟩ := ha k n hm
    obtain ⟨v', h1, h2⟩ := reads_alike h (hk (k, t) (by simp)) hal
    obtain ⟨vs', h3, h4⟩ := readsStruct_alike h' (fun f hf => hk f (by simp [hf])) ha hb
    exact ⟨(k, v') :: vs', .present k t n' v' fs ns' vs' hn' h1 h3, .cons _ _ _ _ ⟨rfl, h2⟩ h4⟩
  | _, _, _, .absent k t fs ns vs hno h', hk, ns', ha, hb => by
    obtain ⟨vs', h3, h4⟩ := readsStruct_alike h' (fun f hf => hk f (by simp [hf])) ha hb
    exact ⟨(k, .none) :: vs', .absent k t fs ns' vs' (hb k hno) h3, .cons _ _ _ _ ⟨rfl, .refl _⟩ h4⟩

theorem readsExtra_alike : ∀ {fs : List (Str × Ty)} {ns : List (Str × Node)}, ReadsExtra P I fs ns →
    ∀ k n, (k, n) ∈ ns → k ∉ fs.map Prod.fst → ∀ {n' : Node}, Alike P keep n n' → ∃ v, Reads P I .ignored n' v
  | _, _, .nil fs, k, n, h, _, _, _ => by cases h
  | _, _, .declared fs k' n' ns hk' h', k, n, h, hk, _, ha => by
    rcases List.mem_cons.1 h with h | h
    · cases h; exact absurd hk' hk
    · exact readsExtra_alike h' k n h hk ha
  | _, _, .extra fs k' n' v ns hk' hr h', k, n, h, hk, _, ha => by
    rcases List.mem_cons.1 h with h | h
    · cases h
      obtain ⟨v', h1, -⟩ := reads_alike hr (.inr .ignored) ha
      exact ⟨v', h1⟩
    · exact readsExtra_alike h' k n h hk ha
end

/-! ## equal up to ownership is alike -/

theorem forgetStr_str {s s' : CowStr} : forgetStr s = forgetStr s' ↔ s.str = s'.str := by
  simp [forgetStr, CowStr.borrowed]

mutual
theorem alike_expr : ∀ (e e' : Expr), forgetExpr e = forgetExpr e' → (keep = true → e = e') →
    Alike P keep (.expr e) (.expr e')
  | .null, e', h, _ => by cases e' <;> first | exact .null | cases h
  | .boolean b, e', h, _ => by
    cases e' with
    | boolean b' => cases h; exact .boolean b
    | _ => cases h
  | .number n, e', h, _ => by
    cases e' with
    | number n' =>
      have h : forgetNumber n = forgetNumber n' := by simpa only [forgetExpr, Expr.number.injEq] using h
      exact .number n n' (sameNumber_forget h)
    | _ => simp [forgetExpr] at h
  | .string s, e', h, hk => by
    cases e' with
    | string s' =>
      refine .string s s' ?_ fun hk' => ?_
      · have h : forgetStr s = forgetStr s' := by simpa only [forgetExpr, Expr.string.injEq] using h
        exact forgetStr_str.1 h
      · have := hk hk'; cases this; rfl
    | _ => simp [forgetExpr] at h
  | .tuple es, e', h, hk => by
    cases e' with
    | tuple es' =>
      simp only [forgetExpr, Expr.tuple.injEq] at h
      exact .tuple es es' (alike_tuple es es' h fun hk' => by have := hk hk'; injection this)
    | _ => simp [forgetExpr] at h
  | .object o, e', h, hk => by
    cases e' with
    | object o' =>
      simp only [forgetExpr, Expr.object.injEq] at h
      obtain ⟨h1, h2⟩ := alike_object o o' h fun hk' => by have := hk hk'; injection this
      exact .object o o' o' h1 h2 (.refl _)
    | _ => simp [forgetExpr] at h

theorem alike_tuple : ∀ (es es' : List Expr), forgetTuple es = forgetTuple es' → (keep = true → es = es') →
    AllRel (fun e e' => Alike P keep (.expr e) (.expr e')) es es'
  | [], es', h, _ => by
    cases es' with
    | nil => exact .nil
    | cons => simp [forgetTuple] at h
  | e :: es, es', h, hk => by
    cases es' with
    | nil => simp [forgetTuple] at h
    | cons e' es' =>
      simp only [forgetTuple, List.cons.injEq] at h
      exact .cons _ _ _ _ (alike_expr e e' h.1 fun hk' => by have := hk hk'; injection this)
        (alike_tuple es es' h.2 fun hk' => by have := hk hk'; injection this)

theorem alike_object : ∀ (o o' : List (ObjKey × Expr)), forgetObject o = forgetObject o' → (keep = true → o = o') →
    o.map (fun p => forgetKey p.1) = o'.map (fun p => forgetKey p.1) ∧
      AllRel (fun p p' => Alike P keep (.expr p.2) (.expr p'.2)) o o'
  | [], o', h, _ => by
    cases o' with
    | nil => exact ⟨rfl, .nil⟩
    | cons p o' => obtain ⟨k, e⟩ := p; simp [forgetObject] at h
  | (k, e) :: o, o', h, hk => by
    cases o' with
    | nil => simp [forgetObject] at h
    | cons p o' =>
      obtain ⟨k', e'⟩ := p
      simp only [forgetObject, List.cons.injEq, Prod.mk.injEq] at h
      have hk1 : keep = true → (k, e) = (k', e') := fun hk' => by have := hk hk'; injection this
      obtain ⟨h1, h2⟩ := alike_object o o' h.2 fun hk' => by have := hk hk'; injection this
      exact ⟨by simp [h1, h.1.1], .cons _ _ _ _ (alike_expr e e' h.1.2 fun hk' => by have := hk1 hk'; injection this) h2⟩
end

theorem forgetLabel_norm {l l' : BlockLabel} (h : forgetLabel l = forgetLabel l') : l.norm = l'.norm := by
  cases l <;> cases l' <;> simp_all [forgetLabel, forgetStr, CowStr.borrowed, BlockLabel.norm]

theorem forgetLabels_alike : ∀ {ls ls' : List BlockLabel}, ls.map forgetLabel = ls'.map forgetLabel → LabelsAlike ls ls'
  | [], [], _ => rfl
  | _ :: _, [], h => (by cases h)
  | [], _ :: _, h => (by cases h)
  | l :: ls, l' :: ls', h => (by
    injection h with h1 h2
    have := forgetLabels_alike h2
    simp only [LabelsAlike, List.map_cons, forgetLabel_norm h1] at this ⊢
    rw [this])

/-- bodies that are alike up to the grouping of blocks -/
theorem alike_of_parts {b b' : Body} (as : List (CowStr × Expr)) (bs : List Block)
    (hk : (attrs b).map (fun p => p.1.str) = as.map (fun p => p.1.str))
    (ha : AllRel (fun p p' => Alike P keep (.expr p.2) (.expr p'.2)) (attrs b) as) (hp : as.Perm (attrs b'))
    (hq : AllRel (fun q q' => q.type.str = q'.type.str ∧ LabelsAlike q.labels q'.labels) (blocks b) bs)
    (hb : AllRel (fun q q' => Alike P keep (.body q.body) (.body q'.body)) (blocks b) bs) (hg : Regrouped bs (blocks b')) :
    Alike P keep (.body b) (.body b') := by
  have hex : ∀ t, ∃ run, ∀ r, LastRun t (blocks b) r → LastRun t (blocks b') run ∧
      AllRel (fun q q' => LabelsAlike q.labels q'.labels) r run ∧
      AllRel (fun q q' => Alike P keep (.body q.body) (.body q'.body)) r run := fun t => by
    by_cases h : ∃ r, LastRun t (blocks b) r
    · obtain ⟨r, hr⟩ := h
      obtain ⟨run, h1, h2⟩ := lastRun_alike (fun q q' h => h.1.1) (hq.both hb) hr
      refine ⟨run, fun r' hr' => ?_⟩
      rw [lastRun_unique hr' hr]
      exact ⟨(hg t run).1 h1, h2.imp fun q q' _ _ h => h.1.2, h2.imp fun q q' _ _ h => h.2⟩
    · exact ⟨[], fun r hr => absurd ⟨r, hr⟩ h⟩
  refine .body b b' as (fun t => (hex t).choose) hk ha hp (fun t r hr => ((hex t).choose_spec r hr).1) (fun t r' hr' => ?_)
    (fun t r hr => ((hex t).choose_spec r hr).2.1) fun t r hr => ((hex t).choose_spec r hr).2.2
  obtain ⟨r, h1, h2⟩ := lastRun_alike (fun q q' h => h.1.symm) hq.flip ((hg t r').2 hr')
  exact ⟨r, h1⟩

/-- the parts of alike bodies -/
structure AlikeParts (P : F64Parse) (keep : Bool) (b b' : Body) : Prop where
  names : (attrs b).map (fun p => p.1.str) = (attrs b').map (fun p => p.1.str)
  values : AllRel (fun p p' => Alike P keep (.expr p.2) (.expr p'.2)) (attrs b) (attrs b')
  headers : AllRel (fun q q' => q.type.str = q'.type.str ∧ LabelsAlike q.labels q'.labels) (blocks b) (blocks b')
  bodies : AllRel (fun q q' => Alike P keep (.body q.body) (.body q'.body)) (blocks b) (blocks b')

theorem AlikeParts.alike {b b' : Body} (h : AlikeParts P keep b b') : Alike P keep (.body b) (.body b') :=
  alike_of_parts (attrs b') (blocks b') h.names h.values (.refl _) h.headers h.bodies fun _ _ => .rfl

mutual
/-- a block against its counterpart: the bodies are alike -/
theorem alike_element : ∀ (x x' : BodyElement), forgetElement x = forgetElement x' → (keep = true → x = x') →
    (∃ k e k' e', x = .attribute k e ∧ x' = .attribute k' e' ∧ k.str = k'.str ∧ Alike P keep (.expr e) (.expr e')) ∨
    ∃ t ls b t' ls' b', x = .block t ls b ∧ x' = .block t' ls' b' ∧ t.str = t'.str ∧ LabelsAlike ls ls' ∧
      AlikeParts P keep b b'
  | .attribute k e, x', h, hk => by
    cases x' with
    | «attribute» k' e' =>
      simp only [forgetElement, BodyElement.attribute.injEq] at h
      exact .inl ⟨k, e, k', e', rfl, rfl, forgetStr_str.1 h.1,
        alike_expr e e' h.2 fun hk' => by have := hk hk'; injection this⟩
    | block => simp [forgetElement] at h
  | .block t ls b, x', h, hk => by
    cases x' with
    | «attribute» => simp [forgetElement] at h
    | block t' ls' b' =>
      simp only [forgetElement, BodyElement.block.injEq] at h
      exact .inr ⟨t, ls, b, t', ls', b', rfl, rfl, forgetStr_str.1 h.1, forgetLabels_alike h.2.1,
        alike_parts b b' h.2.2 fun hk' => by have := hk hk'; injection this⟩

theorem alike_parts : ∀ (b b' : List BodyElement), forgetBody b = forgetBody b' → (keep = true → b = b') →
    AlikeParts P keep b b'
  | [], b', h, _ => by
    cases b' with
    | nil => exact ⟨rfl, .nil, .nil, .nil⟩
    | cons => simp [forgetBody] at h
  | x :: b, b', h, hk => by
    cases b' with
    | nil => simp [forgetBody] at h
    | cons x' b' =>
      simp only [forgetBody, List.cons.injEq] at h
      obtain ⟨h1, h2, h3, h4⟩ := alike_parts b b' h.2 fun hk' => by have := hk hk'; injection this
      rcases alike_element x x' h.1 (fun hk' => by have := hk hk'; injection this) with
        ⟨k, e, k', e', rfl, rfl, hs, ha⟩ | ⟨t, ls, c, t', ls', c', rfl, rfl, ht, hl, hp⟩
      · refine ⟨?_, ?_, ?_, ?_⟩
        · simp only [attrs, List.filterMap_cons, List.map_cons, hs] at h1 ⊢; rw [h1]
        · simp only [attrs, List.filterMap_cons] at h2 ⊢; exact .cons _ _ _ _ ha h2
        · simpa only [blocks, List.filterMap_cons] using h3
        · simpa only [blocks, List.filterMap_cons] using h4
      · refine ⟨?_, ?_, ?_, ?_⟩
        · simpa only [attrs, List.filterMap_cons] using h1
        · simpa only [attrs, List.filterMap_cons] using h2
        · simp only [blocks, List.filterMap_cons] at h3 ⊢; exact .cons _ _ _ _ ⟨ht, hl⟩ h3
        · simp only [blocks, List.filterMap_cons] at h4 ⊢; exact .cons _ _ _ _ hp.alike h4
end

theorem alike_body {b b' : Body} (h : forgetBody b = forgetBody b') : Alike P false (.body b) (.body b') :=
  (alike_parts b b' h (by simp)).alike

theorem alike_refl_body (keep : Bool) (b : Body) : Alike P keep (.body b) (.body b) :=
  (alike_parts b b rfl fun _ => rfl).alike

theorem alike_refl_expr (keep : Bool) (e : Expr) : Alike P keep (.expr e) (.expr e) := alike_expr e e rfl fun _ => rfl

/-- the same attributes in another order, and the same blocks -/
theorem alike_of_perm (keep : Bool) {b b' : Body} (ha : (attrs b).Perm (attrs b')) (hb : blocks b = blocks b') :
    Alike P keep (.body b) (.body b') := by
  have h := alike_parts (P := P) (keep := keep) b b rfl fun _ => rfl
  exact alike_of_parts (attrs b) (blocks b) rfl h.values ha h.headers h.bodies (by rw [hb]; exact fun _ _ => .rfl)

/-- the same attributes in another order, and the blocks regrouped -/
theorem alike_of_regrouped (keep : Bool) {b b' : Body} (ha : (attrs b).Perm (attrs b')) (hb : Regrouped (blocks b) (blocks b')) :
    Alike P keep (.body b) (.body b') :=
  have h := alike_parts (keep := keep) b b rfl fun _ => rfl
  alike_of_parts (attrs b) (blocks b) rfl h.values ha h.headers h.bodies hb

/-! ## `SameVal` is an equivalence -/

theorem Spec.AllRel.of_zip {α β : Type} {R : α → β → Prop} : ∀ {as : List α} {bs : List β}, as.length = bs.length →
    (∀ p ∈ as.zip bs, R p.1 p.2) → AllRel R as bs
  | [], [], _, _ => .nil
  | _ :: _, [], h, _ => (by cases h)
  | [], _ :: _, h, _ => (by cases h)
  | a :: as, b :: bs, h, hz => .cons _ _ _ _ (hz (a, b) (by simp)) (AllRel.of_zip (by simpa using h) fun p hp => hz p (by simp [hp]))

theorem sameVal_entries_iff {es : List (Str × DVal)} {w : DVal} (h : SameVal (.entries es) w) :
    ∃ es' es'', w = .entries es'' ∧ AllRel SameEntry es es' ∧ es'.Perm es'' := by
  cases h with
  | refl => exact ⟨es, es, rfl, AllRel.of_zip rfl fun p hp => by
      obtain ⟨i, hi, rfl⟩ := List.mem_iff_getElem.1 hp
      simp only [List.getElem_zip]
      exact ⟨rfl, .refl _⟩, .refl _⟩
  | entries _ es' es'' hk hz hp =>
    refine ⟨es', es'', rfl, ?_, hp⟩
    have hl : es.length = es'.length := by simpa using congrArg List.length hk
    exact (AllRel.of_map hk).both (AllRel.of_zip hl hz)

theorem Spec.AllRel.comp {α β γ : Type} {R : α → β → Prop} {S : β → γ → Prop} {T : α → γ → Prop} {as : List α} {bs : List β}
    (h : AllRel R as bs) : ∀ {cs : List γ}, AllRel S bs cs → (∀ a b c, (a, b) ∈ as.zip bs → R a b → S b c → T a c) → AllRel T as cs := by
  induction h with
  | nil => intro cs h _; cases h; exact .nil
  | cons a b as bs h _ ih =>
    intro cs h' hT
    cases h' with
    | cons _ c _ cs h1 h2 =>
      exact .cons _ _ _ _ (hT a b c (by simp) h h1) (ih h2 fun a b c hm => hT a b c (by simp [hm]))

theorem sameVal_trans {a b c : DVal} (h : SameVal a b) (h' : SameVal b c) : SameVal a c := by
  induction h generalizing c with
  | refl => exact h'
  | some v v' h1 ih =>
    cases h' with
    | refl => exact .some _ _ h1
    | some _ w h2 => exact .some _ _ (ih h2)
  | seq vs vs' hl hz ih =>
    cases h' with
    | refl => exact .seq _ _ hl hz
    | seq _ ws hl' hz' =>
      have := (AllRel.of_zip hl hz).comp (AllRel.of_zip (R := SameVal) hl' hz') (T := SameVal)
        fun a b c hm _ h2 => ih (a, b) hm h2
      exact .seq _ _ this.length this.zip
  | entries es es' es'' hk hz hp ih =>
    obtain ⟨fs', fs'', rfl, h1, h2⟩ := sameVal_entries_iff h'
    obtain ⟨gs, h3, h4⟩ := AllRel.perm hp.symm h1
    have hl : es.length = es'.length := by simpa using congrArg List.length hk
    have hc := ((AllRel.of_map hk).both (AllRel.of_zip (R := fun p q : Str × DVal => SameVal p.2 q.2) hl hz)).comp h3
      (T := SameEntry) fun p q r hm h5 h6 => ⟨h5.1.trans h6.1, ih (p, q) hm h6.2⟩
    exact sameVal_entries hc (h4.symm.trans h2)

theorem sameVal_symm {a b : DVal} (h : SameVal a b) : SameVal b a := by
  induction h with
  | refl v => exact .refl v
  | some v v' _ ih => exact .some _ _ ih
  | seq vs vs' hl hz ih =>
    have := (AllRel.of_zip (R := fun a b => SameVal b a) hl ih).flip
    exact .seq _ _ this.length this.zip
  | entries es es' es'' hk hz hp ih =>
    have hl : es.length = es'.length := by simpa using congrArg List.length hk
    have h1 : AllRel SameEntry es' es := (((AllRel.of_map hk).both
      (AllRel.of_zip (R := fun p q : Str × DVal => SameVal q.2 p.2) hl ih)).imp (S := fun p q => SameEntry q p)
      fun p q _ _ h => ⟨h.1.symm, h.2⟩).flip
    obtain ⟨gs, h3, h4⟩ := AllRel.perm hp h1
    exact sameVal_entries h3 h4.symm

end Verif
