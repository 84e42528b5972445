import Verif.Proofs.De
import Verif.Proofs.Bytes
/-! # Deserialization into types: termination, one level at a time -/
set_option autoImplicit false

namespace Verif
open Spec

/-! ## reading a map to its end -/

theorem drains_exists (a : MapAcc) : ∃ es s, Drains a es s ∧ ∀ p ∈ es, a.Has p.1 p.2 := by
  generalize hn : a.remaining = n
  induction n generalizing a with
  | zero =>
    rcases nextKey_cases a with ⟨-, h2⟩ | ⟨k, n, a', -, -, -, h4, -⟩ | ⟨r, a', -, -, -, h4, -⟩
    · exact ⟨[], .done, .done _ _ h2, by simp⟩
    · omega
    · omega
  | succ n ih =>
    rcases nextKey_cases a with ⟨h1, h2⟩ | ⟨k, n', a', h1, h2, h3, h4, h5, -⟩ | ⟨r, a', h1, h2, -, -⟩
    · omega
    · rcases nextValue_cases a' with ⟨i1, -⟩ | ⟨n2, a'', i1, i2, i3, i4, i5, -⟩
      · rw [h3] at i1; cases i1
      · rw [h3] at i1; injection i1 with i1; subst i1
        obtain ⟨es, s, hD, hes⟩ := ih a'' (by omega)
        refine ⟨_, _, .entry _ _ _ _ _ _ _ h1 i2 hD, fun p hp => ?_⟩
        rcases List.mem_cons.1 hp with rfl | hp
        · exact h2
        · exact h5 _ _ (i5 _ _ (hes p hp))
    · rcases h2 with ⟨e, rfl⟩ | rfl
      · exact ⟨[], _, .keyError _ _ _ h1, by simp⟩
      · exact ⟨[], _, .keyPanic _ _ h1, by simp⟩

/-- processing the entries in order -/
def runEntries (f : Str → Node → Res DeErr DVal) : List (CowStr × Node) → Stop → Res DeErr (List (Str × DVal))
  | [], .done => .ok []
  | [], .error e => .error e
  | [], .panicked => .panic
  | (k, n) :: es, s => (f k.str n).bind fun v => (runEntries f es s).map ((k.str, v) :: ·)

theorem nextKey_seed_str (a : MapAcc) :
    a.nextKey (fun k => Res.ok k.str) = ((a.nextKey .ok).1.bind (fun | none => .ok none | some k => .ok (some k.str)), (a.nextKey .ok).2) := by
  rcases a with ⟨l, v, seen⟩ | ⟨l, v, seen⟩
  · cases l with
    | nil => rfl
    | cons p l =>
      obtain ⟨k, x⟩ := p
      cases k with
      | expr k => rfl
      | ident k =>
        simp only [MapAcc.nextKey, ObjectMapAccess.nextKey, ObjKey.asStr]
        split <;> rfl
  · cases l with
    | nil => rfl
    | cons p l =>
      obtain ⟨k, x⟩ := p
      simp only [MapAcc.nextKey, BodyMapAccess.nextKey]
      split
      · cases x <;> rfl
      · rfl

theorem nextValue_seed (a : MapAcc) (f : Node → Res DeErr DVal) :
    a.nextValue f = ((a.nextValue .ok).1.bind f, (a.nextValue .ok).2) := by
  rcases a with ⟨l, v, seen⟩ | ⟨l, v, seen⟩
  · cases v <;> rfl
  · cases v with
    | none => rfl
    | some v => cases v <;> rfl

theorem entryLoop_eq {f : Str → Node → Res DeErr DVal} {a : MapAcc} {es : List (CowStr × Node)} {s : Stop}
    (h : Drains a es s) : ∀ {fuel : Nat}, a.remaining < fuel → entryLoop f fuel a = runEntries f es s := by
  induction h with
  | done a a' h1 =>
    intro fuel hf
    cases fuel with
    | zero => omega
    | succ fuel => simp [entryLoop, nextKey_seed_str, h1, Res.bind, runEntries]
  | keyError a a' e h1 =>
    intro fuel hf
    cases fuel with
    | zero => omega
    | succ fuel => simp [entryLoop, nextKey_seed_str, h1, Res.bind, runEntries]
  | keyPanic a a' h1 =>
    intro fuel hf
    cases fuel with
    | zero => omega
    | succ fuel => simp [entryLoop, nextKey_seed_str, h1, Res.bind, runEntries]
  | valueError a a' a'' k e h1 h2 =>
    intro fuel hf
    cases fuel with
    | zero => omega
    | succ fuel => simp [entryLoop, nextKey_seed_str, h1, Res.bind, runEntries, nextValue_seed, h2]
  | valuePanic a a' a'' k h1 h2 =>
    intro fuel hf
    cases fuel with
    | zero => omega
    | succ fuel => simp [entryLoop, nextKey_seed_str, h1, Res.bind, runEntries, nextValue_seed, h2]
  | entry a a' a'' k n es s h1 h2 h3 ih =>
    intro fuel hf
    have hr : a.remaining = a''.remaining + 1 := by
      rcases nextKey_cases a with ⟨-, i2⟩ | ⟨k', n', b, i1, -, -, i4, -⟩ | ⟨r, b, i1, i2, -, i4, -⟩
      · rw [h1] at i2; cases i2
      · rw [h1] at i1; cases i1
        rcases nextValue_cases a' with ⟨-, j⟩ | ⟨_, c, -, j, -, j4, -⟩
        · rw [h2] at j; cases j
        · rw [h2] at j; cases j; omega
      · rw [h1] at i1; cases i1; rcases i2 with ⟨e, i2⟩ | i2 <;> cases i2
    cases fuel with
    | zero => omega
    | succ fuel =>
      simp only [entryLoop, nextKey_seed_str, h1, Res.bind, runEntries, nextValue_seed, h2]
      rw [ih (by omega)]

theorem runEntries_congr {f g : Str → Node → Res DeErr DVal} {es : List (CowStr × Node)} {s : Stop}
    (h : ∀ p ∈ es, f p.1.str p.2 = g p.1.str p.2) : runEntries f es s = runEntries g es s := by
  induction es with
  | nil => cases s <;> rfl
  | cons p es ih =>
    obtain ⟨k, n⟩ := p
    simp only [runEntries]
    rw [h (k, n) (by simp), ih fun p hp => h p (by simp [hp])]

theorem entryLoop_congr {f g : Str → Node → Res DeErr DVal} {a : MapAcc} {fuel : Nat} (hf : a.remaining < fuel)
    (h : ∀ k n, a.Has k n → f k.str n = g k.str n) : entryLoop f fuel a = entryLoop g fuel a := by
  obtain ⟨es, s, hD, hes⟩ := drains_exists a
  rw [entryLoop_eq hD hf, entryLoop_eq hD hf]
  exact runEntries_congr fun p hp => h p.1 p.2 (hes p hp)

/-! ## nodes get smaller -/

theorem le_maxSize {b : Body} {bs : List Body} (h : b ∈ bs) : sizeOf b ≤ maxSize bs := by
  induction bs with
  | nil => cases h
  | cons c bs ih =>
    rcases List.mem_cons.1 h with rfl | h
    · simp only [maxSize]; omega
    · have := ih h; simp only [maxSize]; omega

theorem maxSize_le {bs : List Body} {n : Nat} (h : ∀ b ∈ bs, sizeOf b ≤ n) : maxSize bs ≤ n := by
  induction bs with
  | nil => exact Nat.zero_le _
  | cons c bs ih =>
    have h1 := h c (by simp)
    have h2 := ih fun b hb => h b (by simp [hb])
    simp only [maxSize]; omega

/-- the parts that a sequence or map call hands over -/
def Call.child : Call → Node → Prop
  | .seq ns, n => n ∈ ns
  | .mapObject a, n => ∃ k, (MapAcc.object a).Has k n
  | .mapBody a, n => ∃ k, (MapAcc.body a).Has k n
  | _, _ => False

/-- the node that `visit_some` and `visit_newtype_struct` hand over -/
def Call.wraps : Call → Node → Prop
  | .some n, m => m = n
  | .newtype n, m => m = n
  | _, _ => False

theorem attr_size {b : Body} {p : CowStr × Expr} (h : p ∈ attrs b) : sizeOf p.2 < sizeOf b := by
  rw [attrs, List.mem_filterMap] at h
  obtain ⟨x, hx, h⟩ := h
  have h1 : sizeOf x < sizeOf b := List.sizeOf_lt_of_mem hx
  cases x with
  | «attribute» k e =>
    simp only [Option.some.injEq] at h; subst h
    simp only [BodyElement.attribute.sizeOf_spec] at h1; dsimp only; omega
  | block t ls x => cases h

theorem block_size {b : Body} {q : Block} (h : q ∈ blocks b) : sizeOf q.body + 1 < sizeOf b := by
  rw [blocks, List.mem_filterMap] at h
  obtain ⟨x, hx, h⟩ := h
  have h1 : sizeOf x < sizeOf b := List.sizeOf_lt_of_mem hx
  cases x with
  | «attribute» k e => cases h
  | block t ls x =>
    simp only [Option.some.injEq] at h; subst h
    simp only [BodyElement.block.sizeOf_spec] at h1; dsimp only
    have : 1 ≤ sizeOf t := by cases t; simp; omega
    omega

/-- the bodies in the entry of a type are bodies of blocks of the source -/
theorem fromIter_bodies {l : List (List BlockLabel × Body)} {x : Body}
    (h : x ∈ (BlockBody.fromIter l).flatIter.map Prod.snd) : x ∈ l.map Prod.snd := by
  have hb : Built (BlockBody.fromIter l) l := by simpa [BlockBody.fromIter] using built_extend (l := l) Built.default
  exact (built_bodies hb).mem_iff.1 h

theorem new_bodies {bs : List Block} {p : CowStr × BlockBody} (hp : p ∈ Blocks.new bs) {x : Body}
    (hx : x ∈ p.2.flatIter.map Prod.snd) : ∃ q ∈ bs, q.body = x := by
  obtain ⟨run, ⟨pre, post, rfl, -⟩, he⟩ := new_mem hp
  rw [he] at hx
  have := fromIter_bodies hx
  simp only [List.map_map, List.mem_map] at this
  obtain ⟨q, hq, rfl⟩ := this
  exact ⟨q, by simp [hq], rfl⟩

theorem body_child {ord : HashOrder} {b : Body} {k : CowStr} {n : Node}
    (h : (MapAcc.body (.new ord b)).Has k n) : n.measure < sizeOf b := by
  obtain ⟨v, hv, rfl⟩ := h
  simp only [BodyMapAccess.new, mapAccessIter, attributesOf_eq, blocksOf_eq, List.mem_append, List.mem_map] at hv
  rcases hv with ⟨p, hp, h⟩ | ⟨p, hp, h⟩
  · cases h; exact attr_size hp
  · cases h
    have hp' := (ord.perm _).mem_iff.1 hp
    have : maxSize (p.2.flatIter.map Prod.snd) + 1 + 1 ≤ sizeOf b := by
      have h2 : 2 ≤ sizeOf b := by
        obtain ⟨run, ⟨pre, post, he, h1, -⟩, -⟩ := new_mem hp'
        obtain ⟨q, hq⟩ := List.exists_mem_of_ne_nil _ h1
        have := block_size (b := b) (q := q) (by rw [he]; simp [hq])
        omega
      have := maxSize_le (bs := p.2.flatIter.map Prod.snd) (n := sizeOf b - 2) (by
        intro x hx
        obtain ⟨q, hq, rfl⟩ := new_bodies hp' hx
        have := block_size hq
        omega)
      omega
    simp only [BodyValue.node, Node.measure]; omega

theorem any_child {P : F64Parse} {e : Expr} {c : Call} (h : e.deserializeAny P = .ok c) :
    (∀ m, c.child m → m.measure < sizeOf e) ∧ ∀ m, ¬ c.wraps m := by
  cases e with
  | null => cases h; exact ⟨fun _ h => h.elim, fun _ h => h⟩
  | boolean b => cases h; exact ⟨fun _ h => h.elim, fun _ h => h⟩
  | string s =>
    simp only [Expr.deserializeAny, deserializeString, Res.ok.injEq] at h
    subst h
    split <;> exact ⟨fun _ h => h.elim, fun _ h => h⟩
  | number n =>
    simp only [Expr.deserializeAny, deserializeNumber] at h
    repeat' split at h
    all_goals first
      | (cases h; exact ⟨fun _ h => h.elim, fun _ h => h⟩)
      | cases h
  | tuple es =>
    cases h
    refine ⟨fun m hm => ?_, fun _ h => h⟩
    obtain ⟨e, he, rfl⟩ := List.mem_map.1 hm
    have := List.sizeOf_lt_of_mem he
    simp only [Node.measure, Expr.tuple.sizeOf_spec]; omega
  | object o =>
    cases h
    refine ⟨fun m hm => ?_, fun _ h => h⟩
    obtain ⟨k, e, he, rfl⟩ := hm
    have := List.sizeOf_lt_of_mem (show (ObjKey.ident k, e) ∈ o from he)
    simp only [Prod.mk.sizeOf_spec] at this
    simp only [Node.measure, Expr.object.sizeOf_spec]; omega

theorem bodySeq_child {bs : List Body} {c : Call} (h : deserializeBodySeq bs = .ok c) :
    (∀ m, c.child m → ∃ b ∈ bs, m = .body b) ∧ ∀ m, ¬ c.wraps m := by
  cases h
  refine ⟨fun m hm => ?_, fun _ h => h⟩
  obtain ⟨b, hb, rfl⟩ := List.mem_map.1 hm
  exact ⟨b, hb, rfl⟩

theorem body_flat {bs : List Body} {b : Body} (h : b ∈ bs) : b ∈ (BlockBody.body bs).flatIter.map Prod.snd := by
  simp [BlockBody.flatIter, h]

theorem empty_flat {e : List Body} {m : List (BlockLabel × BlockBody)} {b : Body} (h : b ∈ e) :
    b ∈ (BlockBody.labels e m).flatIter.map Prod.snd := by
  simp only [BlockBody.flatIter, List.map_append, List.map_map, List.mem_append]
  exact .inl (List.mem_map.2 ⟨b, h, rfl⟩)

theorem blockAny_child {ord : HashOrder} {b : BlockBody} {c : Call} (h : b.deserializeAny ord = .ok c) :
    (∀ m, c.child m → m.measure < (Node.block b).measure) ∧ ∀ m, ¬ c.wraps m := by
  have hmap : ∀ x, Body.deserialize ord x = .ok c → x ∈ b.flatIter.map Prod.snd →
      (∀ m, c.child m → m.measure < (Node.block b).measure) ∧ ∀ m, ¬ c.wraps m := by
    intro x hx hm
    cases hx
    refine ⟨fun m hm' => ?_, fun _ h => h⟩
    obtain ⟨k, hk⟩ := hm'
    have h1 := body_child hk
    have h2 := le_maxSize hm
    show m.measure < maxSize (b.flatIter.map Prod.snd) + 1
    omega
  have hseq : ∀ bs, deserializeBodySeq bs = .ok c → (∀ x ∈ bs, x ∈ b.flatIter.map Prod.snd) →
      (∀ m, c.child m → m.measure < (Node.block b).measure) ∧ ∀ m, ¬ c.wraps m := by
    intro bs hx hm
    refine ⟨fun m hm' => ?_, (bodySeq_child hx).2⟩
    obtain ⟨x, hx', rfl⟩ := (bodySeq_child hx).1 m hm'
    have h2 := le_maxSize (hm x hx')
    simp only [Node.measure]; omega
  unfold BlockBody.deserializeAny at h
  split at h
  · exact hmap _ h (body_flat (by simp))
  · exact hseq _ h fun x hx => body_flat hx
  · split at h
    · split at h
      · exact hmap _ h (empty_flat (by simp))
      · exact hseq _ h fun x hx => empty_flat hx
    · cases h

/-- what is handed over is smaller; `Some(self)` and `Newtype(self)` are the node itself, and only for these methods -/
theorem deserialize_child {P : F64Parse} {ord : HashOrder} {h : Hint} {n : Node} {c : Call}
    (hc : n.deserialize P ord h = .ok c) :
    (∀ m, c.child m → m.measure < n.measure) ∧
    (∀ m, c.wraps m → m = n ∧ (h = .option ∨ h = .newtypeStruct)) := by
  cases n with
  | expr e =>
    have hany : e.deserializeAny P = .ok c →
        (∀ m, c.child m → m.measure < (Node.expr e).measure) ∧
          (∀ m, c.wraps m → m = .expr e ∧ (h = .option ∨ h = .newtypeStruct)) := fun h =>
      ⟨(any_child h).1, fun m hm => absurd hm ((any_child h).2 m)⟩
    have htup : ∀ l, (match e with | .tuple es => deserializeTuple es (some l) | other => other.deserializeAny P) = .ok c →
        (∀ m, c.child m → m.measure < (Node.expr e).measure) ∧
          (∀ m, c.wraps m → m = .expr e ∧ (h = .option ∨ h = .newtypeStruct)) := by
      intro l hl
      split at hl
      · rename_i es
        simp only [deserializeTuple] at hl
        split at hl
        · cases hl
        · exact hany hl
      · exact hany hl
    simp only [Node.deserialize, Expr.deserialize] at hc
    cases h with
    | option =>
      dsimp only at hc
      split at hc
      · cases hc; exact ⟨fun _ h => h.elim, fun _ h => h.elim⟩
      · cases hc; exact ⟨fun _ h => h.elim, fun m hm => ⟨hm, .inl rfl⟩⟩
    | newtypeStruct => cases hc; exact ⟨fun _ h => h.elim, fun m hm => ⟨hm, .inr rfl⟩⟩
    | tuple l => exact htup l hc
    | tupleStruct l => exact htup l hc
    | _ => exact hany hc
  | body b =>
    cases hc
    exact ⟨fun m ⟨k, hk⟩ => body_child hk, fun _ h => h.elim⟩
  | key s =>
    simp only [Node.deserialize, keyDeserialize] at hc
    split at hc
    · cases hc; exact ⟨fun _ h => h.elim, fun _ h => h.elim⟩
    rw [Res.ok.injEq] at hc
    subst hc
    split <;> exact ⟨fun _ h => h.elim, fun _ h => h.elim⟩
  | block b =>
    have hany : b.deserializeAny ord = .ok c →
        (∀ m, c.child m → m.measure < (Node.block b).measure) ∧
          (∀ m, c.wraps m → m = .block b ∧ (h = .option ∨ h = .newtypeStruct)) := fun h =>
      ⟨(blockAny_child h).1, fun m hm => absurd hm ((blockAny_child h).2 m)⟩
    simp only [Node.deserialize, BlockBody.deserialize] at hc
    cases h with
    | option =>
      dsimp only at hc
      split at hc
      · cases hc; exact ⟨fun _ h => h.elim, fun _ h => h.elim⟩
      · cases hc; exact ⟨fun _ h => h.elim, fun m hm => ⟨hm, .inl rfl⟩⟩
    | seq =>
      cases b with
      | body bs =>
        dsimp only at hc
        refine ⟨fun m hm => ?_, fun m hm => absurd hm ((bodySeq_child hc).2 m)⟩
        obtain ⟨x, hx', rfl⟩ := (bodySeq_child hc).1 m hm
        have h2 := le_maxSize (body_flat hx')
        simp only [Node.measure]; omega
      | labels e m => exact hany hc
    | _ => exact hany hc

/-! ## one level of a type -/

theorem deAll_congr {f g : Node → Res DeErr DVal} {ns : List Node} (h : ∀ n ∈ ns, f n = g n) : deAll f ns = deAll g ns := by
  induction ns with
  | nil => rfl
  | cons n ns ih => simp only [deAll]; rw [h n (by simp), ih fun m hm => h m (by simp [hm])]

theorem deFields_congr {f g : Ty → Node → Res DeErr DVal} : ∀ {ts : List Ty} {ns : List Node},
    (∀ t ∈ ts, ∀ n ∈ ns, f t n = g t n) → deFields f ts ns = deFields g ts ns
  | [], _, _ => rfl
  | _ :: _, [], _ => rfl
  | t :: ts, n :: ns, h => by
    simp only [deFields]
    rw [h t (by simp) n (by simp), deFields_congr fun t' ht n' hn => h t' (by simp [ht]) n' (by simp [hn])]

theorem field?_mem {α : Type} {k : Str} {l : List (Str × α)} {v : α} (h : field? k l = some v) : (k, v) ∈ l := by
  induction l with
  | nil => cases h
  | cons p l ih =>
    obtain ⟨k', v'⟩ := p
    simp only [field?] at h
    split at h
    · rename_i hk; subst hk; cases h; simp
    · simp [ih h]

theorem sizeOf_field {k : Str} {fs : List (Str × Ty)} : sizeOf ((field? k fs).getD .ignored) ≤ sizeOf (Ty.struct fs) := by
  cases h : field? k fs with
  | none => simp
  | some t =>
    have := List.sizeOf_lt_of_mem (field?_mem h)
    simp only [Prod.mk.sizeOf_spec] at this
    simp only [Option.getD_some, Ty.struct.sizeOf_spec]; omega

theorem visit_congr {I : F64OfInt} {f g : Ty → Node → Res DeErr DVal} {t : Ty} {c : Call}
    (h1 : ∀ t' n, c.child n → sizeOf t' ≤ sizeOf t → f t' n = g t' n)
    (h2 : ∀ t' n, c.wraps n → sizeOf t' < sizeOf t → f t' n = g t' n)
    (h3 : t = .ignored → ∀ n, ¬ c.wraps n) : visit I f t c = visit I g t c := by
  have hmap : ∀ (t' : Ty) (a : MapAcc), (∀ k n, a.Has k n → c.child n) → sizeOf t' ≤ sizeOf t →
      entryLoop (fun _ => f t') (a.remaining + 1) a = entryLoop (fun _ => g t') (a.remaining + 1) a :=
    fun t' a ha ht => entryLoop_congr (Nat.lt_succ_self _) fun k n hk => h1 t' n (ha k n hk) ht
  have hstruct : ∀ (fs : List (Str × Ty)) (a : MapAcc), t = .struct fs → (∀ k n, a.Has k n → c.child n) →
      entryLoop (fun k => f ((field? k fs).getD .ignored)) (a.remaining + 1) a =
        entryLoop (fun k => g ((field? k fs).getD .ignored)) (a.remaining + 1) a := by
    intro fs a ht ha
    refine entryLoop_congr (Nat.lt_succ_self _) fun k n hk => h1 _ n (ha k n hk) ?_
    rw [ht]; exact sizeOf_field
  cases t with
  | option t =>
    cases c <;> try rfl
    simp only [visit]; rw [h2 t _ rfl (by simp)]
  | seq t =>
    cases c <;> try rfl
    simp only [visit]; rw [deAll_congr fun n hn => h1 t n hn (by simp)]
  | tuple ts =>
    cases c <;> try rfl
    simp only [visit]
    rw [deFields_congr fun t' ht n hn => h1 t' n hn (by
      have := List.sizeOf_lt_of_mem ht
      simp only [Ty.tuple.sizeOf_spec]; omega)]
  | tupleStruct ts =>
    cases c <;> try rfl
    simp only [visit]
    rw [deFields_congr fun t' ht n hn => h1 t' n hn (by
      have := List.sizeOf_lt_of_mem ht
      simp only [Ty.tupleStruct.sizeOf_spec]; omega)]
  | map t =>
    cases c <;> try rfl
    all_goals
      simp only [visit]; rw [hmap t _ (fun k n hk => ⟨k, hk⟩) (by simp)]
  | struct fs =>
    cases c <;> try rfl
    case seq ns =>
      simp only [visit]
      rw [deFields_congr fun t' ht n hn => h1 t' n hn (by
        obtain ⟨p, hp, rfl⟩ := List.mem_map.1 ht
        have := List.sizeOf_lt_of_mem hp
        have hp2 : sizeOf p.2 < sizeOf p := by cases p; simp; omega
        simp only [Ty.struct.sizeOf_spec]; omega)]
    all_goals
      simp only [visit]; rw [hstruct fs _ rfl (fun k n hk => ⟨k, hk⟩)]
  | newtype t =>
    cases c <;> try rfl
    case newtype n => simp only [visit]; rw [h2 t _ rfl (by simp)]
    case seq ns =>
      cases ns with
      | nil => rfl
      | cons n ns => simp only [visit]; rw [h1 t n (by simp [Call.child]) (by simp)]
  | ignored =>
    cases c <;> try rfl
    case some n => exact absurd rfl (h3 rfl n)
    case newtype n => exact absurd rfl (h3 rfl n)
    case seq ns => simp only [visit]; rw [deAll_congr fun n hn => h1 .ignored n hn (by simp)]
    all_goals
      simp only [visit]; rw [hmap .ignored _ (fun k n hk => ⟨k, hk⟩) (by simp)]
  | any =>
    cases c <;> try rfl
    case seq ns => simp only [visit]; rw [deAll_congr fun n hn => h1 .any n hn (by simp)]
    all_goals
      simp only [visit]; rw [hmap .any _ (fun k n hk => ⟨k, hk⟩) (by simp)]
  | bytes u =>
    cases c <;> try rfl
    case seq ns => simp only [visit]; rw [deAll_congr fun n hn => h1 (.int u.ty) n hn (sizeOf_u8 u)]
  | char =>
    cases c <;> try rfl
    all_goals
      rename_i s
      cases s with
      | nil => rfl
      | cons c s => cases s <;> rfl
  | _ => cases c <;> rfl

/-- more fuel changes nothing -/
theorem deN_fuel (P : F64Parse) (I : F64OfInt) (ord : HashOrder) : ∀ (N : Nat) (t : Ty) (n : Node) (k k' : Nat),
    sizeOf t + n.measure < N → sizeOf t + n.measure < k → sizeOf t + n.measure < k' →
    deN P I ord k t n = deN P I ord k' t n := by
  intro N
  induction N with
  | zero => intros; omega
  | succ N ih =>
    intro t n k k' hN hk hk'
    cases k with
    | zero => omega
    | succ k =>
    cases k' with
    | zero => omega
    | succ k' =>
    simp only [deN]
    cases hc : n.deserialize P ord t.hint with
    | ok c =>
      simp only [Res.bind]
      obtain ⟨i1, i2⟩ := deserialize_child hc
      refine visit_congr (fun t' m hm ht => ?_) (fun t' m hm ht => ?_) fun ht m hm => ?_
      · have := i1 m hm
        exact ih t' m k k' (by omega) (by omega) (by omega)
      · obtain ⟨rfl, -⟩ := i2 m hm
        exact ih t' m k k' (by omega) (by omega) (by omega)
      · subst ht
        rcases (i2 m hm).2 with h | h <;> cases h
    | _ => rfl

theorem deserialize_eq (P : F64Parse) (I : F64OfInt) (ord : HashOrder) (t : Ty) (n : Node) :
    deserialize P I ord t n = (n.deserialize P ord t.hint).bind (visit I (deserialize P I ord) t) := by
  show deN P I ord (sizeOf t + n.measure + 1) t n = _
  simp only [deN]
  cases hc : n.deserialize P ord t.hint with
  | ok c =>
    simp only [Res.bind]
    obtain ⟨i1, i2⟩ := deserialize_child hc
    refine visit_congr (fun t' m hm ht => ?_) (fun t' m hm ht => ?_) fun ht m hm => ?_
    · have := i1 m hm
      exact deN_fuel P I ord _ t' m _ _ (Nat.lt_succ_self _) (by omega) (by omega)
    · obtain ⟨rfl, -⟩ := i2 m hm
      exact deN_fuel P I ord _ t' m _ _ (Nat.lt_succ_self _) (by omega) (by omega)
    · subst ht
      rcases (i2 m hm).2 with h | h <;> cases h
  | _ => rfl

end Verif
