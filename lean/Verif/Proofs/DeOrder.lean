import Verif.Proofs.DeStruct
/-! # Deserialization: the order of hash maps does not matter -/
set_option autoImplicit false

namespace Verif
open Spec

theorem Spec.AllRel.zip {α β : Type} {R : α → β → Prop} {as : List α} {bs : List β} (h : AllRel R as bs) :
    ∀ p ∈ as.zip bs, R p.1 p.2 := by
  induction h with
  | nil => simp
  | cons a b as bs h1 _ ih =>
    intro p hp
    rw [List.zip_cons_cons] at hp
    rcases List.mem_cons.1 hp with rfl | hp
    · exact h1
    · exact ih p hp

/-- choose a second list along the first, related to the given one -/
theorem Spec.AllRel.trans_exists {α β γ : Type} {R : α → β → Prop} {S : α → γ → Prop} {T : β → γ → Prop} {as : List α}
    {bs : List β} (h : AllRel R as bs) (hi : ∀ a b, a ∈ as → R a b → ∃ c, S a c ∧ T b c) :
    ∃ cs, AllRel S as cs ∧ AllRel T bs cs := by
  induction h with
  | nil => exact ⟨[], .nil, .nil⟩
  | cons a b as bs h1 _ ih =>
    obtain ⟨c, hc, hc'⟩ := hi a b (by simp) h1
    obtain ⟨cs, h2, h3⟩ := ih fun a b ha => hi a b (by simp [ha])
    exact ⟨c :: cs, .cons _ _ _ _ hc h2, .cons _ _ _ _ hc' h3⟩

theorem Spec.AllRel.perm {α β : Type} {R : α → β → Prop} {as as' : List α} (hp : as.Perm as') :
    ∀ {bs : List β}, AllRel R as bs → ∃ bs', AllRel R as' bs' ∧ bs.Perm bs' := by
  induction hp with
  | nil => intro bs h; exact ⟨bs, h, .refl _⟩
  | cons a _ ih =>
    intro bs h
    cases h with
    | cons _ b _ bs h1 h2 =>
      obtain ⟨bs', h3, h4⟩ := ih h2
      exact ⟨b :: bs', .cons _ _ _ _ h1 h3, h4.cons b⟩
  | swap a a' l =>
    intro bs h
    cases h with
    | cons _ b _ bs h1 h2 =>
      cases h2 with
      | cons _ b' _ bs h2 h3 => exact ⟨b' :: b :: bs, .cons _ _ _ _ h2 (.cons _ _ _ _ h1 h3), .swap b' b bs⟩
  | trans _ _ ih1 ih2 =>
    intro bs h
    obtain ⟨bs', h1, h2⟩ := ih1 h
    obtain ⟨bs'', h3, h4⟩ := ih2 h1
    exact ⟨bs'', h3, h2.trans h4⟩

/-- success carries over, with the same value up to order -/
def Carries (x y : Res DeErr DVal) : Prop := ∀ v, x = .ok v → ∃ v', y = .ok v' ∧ SameVal v v'

/-- the same for named values -/
def SameEntry (p q : Str × DVal) : Prop := p.1 = q.1 ∧ SameVal p.2 q.2

theorem sameEntry_keys {vs vs' : List (Str × DVal)} (h : AllRel SameEntry vs vs') :
    vs.map Prod.fst = vs'.map Prod.fst := by
  induction h with
  | nil => rfl
  | cons a b as bs h1 _ ih => simp [ih, h1.1]

theorem sameVal_entries {vs vs' vs'' : List (Str × DVal)} (h : AllRel SameEntry vs vs') (hp : vs'.Perm vs'') :
    SameVal (.entries vs) (.entries vs'') :=
  .entries vs vs' vs'' (sameEntry_keys h) (fun p hp => (h.zip p hp).2) hp

theorem deAll_carries {f g : Node → Res DeErr DVal} {ns : List Node} (h : ∀ n ∈ ns, Carries (f n) (g n)) {vs : List DVal}
    (hv : deAll f ns = .ok vs) : ∃ vs', deAll g ns = .ok vs' ∧ SameVal (.seq vs) (.seq vs') := by
  obtain ⟨vs', h1, h2⟩ := (deAll_ok.1 hv).trans_exists (S := fun n v => g n = .ok v) (T := SameVal)
    fun n v hn hv => h n hn v hv
  exact ⟨vs', deAll_ok.2 h1, .seq _ _ h2.length h2.zip⟩

theorem deFields_carries {f g : Ty → Node → Res DeErr DVal} {ts : List Ty} {ns : List Node}
    (h : ∀ t ∈ ts, ∀ n ∈ ns, Carries (f t n) (g t n)) {vs : List DVal} (hv : deFields f ts ns = .ok vs) :
    ∃ vs', deFields g ts ns = .ok vs' ∧ AllRel SameVal vs vs' := by
  obtain ⟨hl, hv⟩ := deFields_ok.1 hv
  obtain ⟨vs', h1, h2⟩ := hv.trans_exists (S := fun p v => g p.1 p.2 = .ok v) (T := SameVal)
    fun p v hp hv => h p.1 (List.of_mem_zip hp).1 p.2 (List.of_mem_zip hp).2 v hv
  exact ⟨vs', deFields_ok.2 ⟨hl, h1⟩, h2⟩

theorem zip_names {ns : List Str} : ∀ {vs vs' : List DVal}, AllRel SameVal vs vs' →
    AllRel SameEntry (ns.zip vs) (ns.zip vs') := by
  induction ns with
  | nil => intro vs vs' h; exact .nil
  | cons n ns ih =>
    intro vs vs' h
    cases h with
    | nil => exact .nil
    | cons a b as bs h1 h2 => exact .cons _ _ _ _ ⟨rfl, h1⟩ (ih h2)

/-- the accesses of the two calls yield the same entries, up to order -/
def SameAccess (a a' : MapAcc) : Prop :=
  ∀ es, Drains a es .done → (es.map fun p => p.1.str).Nodup ∧ ∃ es', Drains a' es' .done ∧ es.Perm es'

theorem entryLoop_carries {f g : Str → Node → Res DeErr DVal} {a a' : MapAcc} (hs : SameAccess a a')
    (h : ∀ k n, a.Has k n → Carries (f k.str n) (g k.str n)) {vs : List (Str × DVal)}
    (hv : entryLoop f (a.remaining + 1) a = .ok vs) :
    (vs.map Prod.fst).Nodup ∧
    ∃ vs1 vs', entryLoop g (a'.remaining + 1) a' = .ok vs' ∧ AllRel SameEntry vs vs1 ∧ vs1.Perm vs' := by
  obtain ⟨es, s, hD, hes⟩ := drains_exists a
  obtain ⟨rfl, hv⟩ := (entryLoop_ok hD).1 hv
  obtain ⟨hn, es', hD', hp⟩ := hs es hD
  have hk := allRel_keys hv fun p q h => h.1
  obtain ⟨vs1, h1, h2⟩ := hv.trans_exists (S := fun p q => q.1 = p.1.str ∧ g p.1.str p.2 = .ok q.2) (T := SameEntry)
    fun p q hp ⟨hq1, hq2⟩ => by
      obtain ⟨v', h3, h4⟩ := h p.1 p.2 (hes p hp) q.2 hq2
      exact ⟨(p.1.str, v'), ⟨rfl, h3⟩, hq1, h4⟩
  obtain ⟨vs', h3, h4⟩ := h1.perm hp
  exact ⟨by rw [hk]; exact hn, vs1, vs', (entryLoop_ok hD').2 ⟨rfl, h3⟩, h2, h4⟩

theorem structFields_carries {found found1 found' : List (Str × DVal)} (hn : (found.map Prod.fst).Nodup)
    (h : AllRel SameEntry found found1) (hp : found1.Perm found') {fs : List (Str × Ty)} {vs : List (Str × DVal)}
    (hv : structFields found fs = .ok vs) :
    ∃ vs', structFields found' fs = .ok vs' ∧ SameVal (.entries vs) (.entries vs') := by
  have hk := sameEntry_keys h
  have hn' : (found'.map Prod.fst).Nodup := (hp.map _).nodup_iff.1 (hk ▸ hn)
  have hnone : ∀ k, field? k found = none → field? k found' = none := by
    intro k hk'
    rw [field?_none] at hk' ⊢
    rw [← (hp.map Prod.fst).mem_iff, ← hk]; exact hk'
  have hsome : ∀ k v, field? k found = some v → ∃ v', field? k found' = some v' ∧ SameVal v v' := by
    intro k v hkv
    obtain ⟨q, hq, h1, h2⟩ := h.left (field?_mem hkv)
    refine ⟨q.2, field?_of_mem ?_ hn', h2⟩
    have : (k, q.2) = q := by
      obtain ⟨q1, q2⟩ := q
      simp only [Prod.mk.injEq, and_true]; exact h1
    rw [this]; exact hp.mem_iff.1 hq
  obtain ⟨vs', h1, h2⟩ := (structFields_ok.1 hv).trans_exists (S := fun p q => q.1 = p.1 ∧
        (field? p.1 found' = some q.2 ∨ (field? p.1 found' = none ∧ (∃ t, p.2 = .option t) ∧ q.2 = .none)))
    (T := SameEntry) fun p q _ ⟨hq1, hq2⟩ => by
      rcases hq2 with hq2 | ⟨hq2, ht, hv⟩
      · obtain ⟨v', h3, h4⟩ := hsome _ _ hq2
        exact ⟨(p.1, v'), ⟨rfl, .inl h3⟩, hq1, h4⟩
      · exact ⟨(p.1, .none), ⟨rfl, .inr ⟨hnone _ hq2, ht, rfl⟩⟩, hq1, by rw [hv]; exact .refl _⟩
  exact ⟨vs', structFields_ok.2 h1, sameVal_entries h2 (.refl _)⟩

/-- the two calls are the same but for the order of a body's block types -/
inductive SameCall : Call → Call → Prop
  | leaf (c : Call) : c.access = none → SameCall c c
  | object (a : ObjectMapAccess) : SameAccess (.object a) (.object a) → SameCall (.mapObject a) (.mapObject a)
  | body (a a' : BodyMapAccess) : SameAccess (.body a) (.body a') → SameCall (.mapBody a) (.mapBody a')

theorem sameAccess_refl_object {o : List (ObjKey × Expr)} : SameAccess (.object (.new o)) (.object (.new o)) := by
  intro es hD
  refine ⟨?_, es, hD, .refl _⟩
  rcases Props.c46_complete o with ⟨l, rfl, hd⟩ | ⟨pre, k, e, post, rfl, hd, hk⟩ | ⟨pre, k, e, post, rfl, hd⟩
  · have := (drains_functional hD (Props.c46_entries l hd)).1
    rw [this, List.map_map]
    exact hd
  · cases (drains_functional hD (Props.c46_duplicate pre k e post hd hk)).2
  · cases (drains_functional hD (Props.c46_expression_key pre k e post hd)).2

theorem sameAccess_body (ord ord' : HashOrder) (b : Body) :
    SameAccess (.body (.new ord b)) (.body (.new ord' b)) := by
  intro es hD
  obtain ⟨hn, hd, hc, -⟩ := drained_entry hD
  refine ⟨hn, ?_⟩
  have key : ∀ ord : HashOrder, Drains (.body (.new ord b)) ((attrs b).map (fun p => (p.1, .expr p.2)) ++
      (ord.order (Blocks.new (blocks b))).map fun p => (p.1, .block p.2)) .done := by
    intro ord
    have hn : ((mapAccessIter ord b).map fun p => p.1.str).Nodup := by
      rw [mapAccessIter, attributesOf_eq, blocksOf_eq, List.map_append, List.map_map, List.map_map, List.nodup_append]
      refine ⟨hd, Props.ordered_nodup ord b, fun x hx y hy hxy => ?_⟩
      obtain ⟨p, hp, rfl⟩ := List.mem_map.1 hx
      obtain ⟨q, hq, rfl⟩ := List.mem_map.1 hy
      have : q.1.str ∈ (Blocks.new (blocks b)).map fun p => p.1.str :=
        List.mem_map_of_mem ((ord.perm _).mem_iff.1 hq)
      obtain ⟨c, hc', ht⟩ := new_types.1 this
      exact hc ⟨p, hp, c, hc', by rw [ht]; exact hxy⟩
    have := drains_body_done hn
    rw [mapAccessIter, attributesOf_eq, blocksOf_eq] at this
    simpa [BodyMapAccess.new, mapAccessIter, attributesOf_eq, blocksOf_eq, Function.comp_def, BodyValue.node] using this
  refine ⟨_, key ord', ?_⟩
  rw [(drains_functional hD (key ord)).1]
  refine List.Perm.append_left _ (List.Perm.map _ ?_)
  exact (ord.perm _).trans (ord'.perm _).symm

/-- every map access that a node hands over comes from an object or a body -/
theorem node_call {P : F64Parse} {ord : HashOrder} (ord' : HashOrder) {h : Hint} {n : Node} {c : Call}
    (hc : n.deserialize P ord h = .ok c) : ∃ c', n.deserialize P ord' h = .ok c' ∧ SameCall c c' := by
  have hb : ∀ b, Body.deserialize ord b = .ok c → ∃ c', Body.deserialize ord' b = .ok c' ∧ SameCall c c' := by
    intro b h
    cases h
    exact ⟨_, rfl, .body _ _ (sameAccess_body ord ord' b)⟩
  have hs : ∀ bs, deserializeBodySeq bs = .ok c → ∃ c', deserializeBodySeq bs = .ok c' ∧ SameCall c c' := by
    intro bs h
    cases h
    exact ⟨_, rfl, .leaf _ rfl⟩
  cases n with
  | body b => exact hb b hc
  | key s =>
    refine ⟨c, hc, .leaf _ ?_⟩
    simp only [Node.deserialize, keyDeserialize] at hc
    split at hc
    · cases hc; rfl
    · rw [Res.ok.injEq] at hc
      subst hc
      split <;> rfl
  | expr e =>
    refine ⟨c, hc, ?_⟩
    have hany : ∀ e : Expr, e.deserializeAny P = .ok c → SameCall c c := by
      intro e h
      cases e with
      | object o => cases h; exact .object _ sameAccess_refl_object
      | string s =>
        simp only [Expr.deserializeAny, deserializeString, Res.ok.injEq] at h
        subst h
        exact .leaf _ (by split <;> rfl)
      | number n =>
        simp only [Expr.deserializeAny, deserializeNumber] at h
        repeat' split at h
        all_goals first
          | (cases h; exact .leaf _ rfl)
          | cases h
      | _ => cases h; exact .leaf _ rfl
    have hc : e.deserialize P h = .ok c := hc
    unfold Expr.deserialize at hc
    cases h with
    | option => dsimp only at hc; split at hc <;> cases hc <;> exact .leaf _ rfl
    | newtypeStruct => cases hc; exact .leaf _ rfl
    | tuple l =>
      dsimp only at hc
      split at hc
      · simp only [deserializeTuple] at hc
        split at hc
        · cases hc
        · cases hc; exact .leaf _ rfl
      · exact hany _ hc
    | tupleStruct l =>
      dsimp only at hc
      split at hc
      · simp only [deserializeTuple] at hc
        split at hc
        · cases hc
        · cases hc; exact .leaf _ rfl
      · exact hany _ hc
    | _ => exact hany _ hc
  | block b =>
    have hany : b.deserializeAny ord = .ok c → ∃ c', b.deserializeAny ord' = .ok c' ∧ SameCall c c' := by
      intro h
      cases b with
      | body bs =>
        rcases bs with _ | ⟨b, _ | ⟨b', bs⟩⟩
        · exact hs _ h
        · exact hb _ h
        · exact hs _ h
      | labels e m =>
        simp only [BlockBody.deserializeAny] at h ⊢
        split at h
        · rename_i hm
          rw [if_pos hm]
          rcases e with _ | ⟨b, _ | ⟨b', bs⟩⟩
          · exact hs _ h
          · exact hb _ h
          · exact hs _ h
        · cases h
    simp only [Node.deserialize, BlockBody.deserialize] at hc ⊢
    cases h with
    | option =>
      refine ⟨c, hc, .leaf _ ?_⟩
      dsimp only at hc
      split at hc <;> cases hc <;> rfl
    | seq =>
      cases b with
      | body bs => exact hs _ hc
      | labels e m => exact hany hc
    | _ => exact hany hc

theorem visit_leaf_carries {I : F64OfInt} {f g : Ty → Node → Res DeErr DVal} {t : Ty} {c : Call} (hc : c.access = none)
    (h1 : ∀ t' n, c.child n → sizeOf t' ≤ sizeOf t → Carries (f t' n) (g t' n))
    (h2 : ∀ t' n, c.wraps n → sizeOf t' < sizeOf t → Carries (f t' n) (g t' n))
    (h3 : t = .ignored → ∀ n, ¬ c.wraps n) : Carries (visit I f t c) (visit I g t c) := by
  cases t with
  | option t =>
    cases c <;> first | exact fun v h => ⟨v, h, .refl v⟩ | skip
    rename_i n
    intro v h
    obtain ⟨w, hw, rfl⟩ := map_ok.1 h
    obtain ⟨w', hw', hs⟩ := h2 t n rfl (by simp) w hw
    exact ⟨.some w', map_ok.2 ⟨w', hw', rfl⟩, .some _ _ hs⟩
  | seq t =>
    cases c <;> first | exact fun v h => ⟨v, h, .refl v⟩ | skip
    intro v h
    obtain ⟨w, hw, rfl⟩ := map_ok.1 h
    obtain ⟨w', hw', hs⟩ := deAll_carries (fun n hn => h1 t n hn (by simp)) hw
    exact ⟨_, map_ok.2 ⟨w', hw', rfl⟩, hs⟩
  | tuple ts =>
    cases c <;> first | exact fun v h => ⟨v, h, .refl v⟩ | skip
    intro v h
    obtain ⟨w, hw, rfl⟩ := map_ok.1 h
    obtain ⟨w', hw', hs⟩ := deFields_carries (fun t' ht n hn => h1 t' n hn (by
      have := List.sizeOf_lt_of_mem ht
      simp only [Ty.tuple.sizeOf_spec]; omega)) hw
    exact ⟨_, map_ok.2 ⟨w', hw', rfl⟩, .seq _ _ hs.length hs.zip⟩
  | tupleStruct ts =>
    cases c <;> first | exact fun v h => ⟨v, h, .refl v⟩ | skip
    intro v h
    obtain ⟨w, hw, rfl⟩ := map_ok.1 h
    obtain ⟨w', hw', hs⟩ := deFields_carries (fun t' ht n hn => h1 t' n hn (by
      have := List.sizeOf_lt_of_mem ht
      simp only [Ty.tupleStruct.sizeOf_spec]; omega)) hw
    exact ⟨_, map_ok.2 ⟨w', hw', rfl⟩, .seq _ _ hs.length hs.zip⟩
  | map t => cases c <;> first | exact fun v h => ⟨v, h, .refl v⟩ | (cases hc; done)
  | struct fs =>
    cases c <;> first | exact fun v h => ⟨v, h, .refl v⟩ | (cases hc; done) | skip
    intro v h
    obtain ⟨w, hw, rfl⟩ := map_ok.1 h
    obtain ⟨w', hw', hs⟩ := deFields_carries (fun t' ht n hn => h1 t' n hn (by
      obtain ⟨p, hp, rfl⟩ := List.mem_map.1 ht
      have := List.sizeOf_lt_of_mem hp
      have hp2 : sizeOf p.2 < sizeOf p := by cases p; simp; omega
      simp only [Ty.struct.sizeOf_spec]; omega)) hw
    exact ⟨_, map_ok.2 ⟨w', hw', rfl⟩, sameVal_entries (zip_names hs) (.refl _)⟩
  | newtype t =>
    cases c <;> first | exact fun v h => ⟨v, h, .refl v⟩ | skip
    case newtype n => exact h2 t n rfl (by simp)
    case seq ns =>
      cases ns with
      | nil => exact fun v h => ⟨v, h, .refl v⟩
      | cons n ns => exact h1 t n (by simp [Call.child]) (by simp)
  | ignored =>
    cases c <;> first | exact fun v h => ⟨v, h, .refl v⟩ | (cases hc; done) | skip
    case some n => exact absurd rfl (h3 rfl n)
    case newtype n => exact absurd rfl (h3 rfl n)
    case seq ns =>
      intro v h
      obtain ⟨w, hw, rfl⟩ := map_ok.1 h
      obtain ⟨w', hw', hs⟩ := deAll_carries (fun n hn => h1 .ignored n hn (by simp)) hw
      exact ⟨_, map_ok.2 ⟨w', hw', rfl⟩, .refl _⟩
  | any =>
    cases c <;> first | exact fun v h => ⟨v, h, .refl v⟩ | (cases hc; done) | skip
    case seq ns =>
      intro v h
      obtain ⟨w, hw, rfl⟩ := map_ok.1 h
      obtain ⟨w', hw', hs⟩ := deAll_carries (fun n hn => h1 .any n hn (by simp)) hw
      exact ⟨_, map_ok.2 ⟨w', hw', rfl⟩, hs⟩
  | bytes u =>
    cases c <;> first | exact fun v h => ⟨v, h, .refl v⟩ | (cases hc; done) | skip
    case seq ns =>
      intro v h
      obtain ⟨w, hw, rfl⟩ := map_ok.1 h
      obtain ⟨w', hw', hs⟩ := deAll_carries (fun n hn => h1 (.int u.ty) n hn (sizeOf_u8 u)) hw
      exact ⟨_, map_ok.2 ⟨w', hw', rfl⟩, hs⟩
  | char =>
    cases c <;> first | exact fun v h => ⟨v, h, .refl v⟩ | skip
    all_goals
      rename_i s
      rcases s with _ | ⟨_, _ | _⟩ <;> exact fun v h => ⟨v, h, .refl v⟩
  | _ => cases c <;> exact fun v h => ⟨v, h, .refl v⟩

theorem map_carries {f g : Str → Node → Res DeErr DVal} {a a' : MapAcc} (hs : SameAccess a a')
    (h : ∀ k n, a.Has k n → Carries (f k.str n) (g k.str n)) :
    Carries ((entryLoop f (a.remaining + 1) a).map .entries) ((entryLoop g (a'.remaining + 1) a').map .entries) ∧
    Carries ((entryLoop f (a.remaining + 1) a).map fun _ => .ignored)
      ((entryLoop g (a'.remaining + 1) a').map fun _ => .ignored) ∧
    ∀ fs, Carries ((entryLoop f (a.remaining + 1) a).bind fun es => (structFields es fs).map .entries)
      ((entryLoop g (a'.remaining + 1) a').bind fun es => (structFields es fs).map .entries) := by
  refine ⟨fun v hv => ?_, fun v hv => ?_, fun fs v hv => ?_⟩
  · obtain ⟨w, hw, rfl⟩ := map_ok.1 hv
    obtain ⟨-, w1, w', hw', h1, h2⟩ := entryLoop_carries hs h hw
    exact ⟨_, map_ok.2 ⟨w', hw', rfl⟩, sameVal_entries h1 h2⟩
  · obtain ⟨w, hw, rfl⟩ := map_ok.1 hv
    obtain ⟨-, w1, w', hw', h1, h2⟩ := entryLoop_carries hs h hw
    exact ⟨_, map_ok.2 ⟨w', hw', rfl⟩, .refl _⟩
  · obtain ⟨w, hw, hv⟩ := bind_ok.1 hv
    obtain ⟨vs, hvs, rfl⟩ := map_ok.1 hv
    obtain ⟨hn, w1, w', hw', h1, h2⟩ := entryLoop_carries hs h hw
    obtain ⟨vs', hvs', hsame⟩ := structFields_carries hn h1 h2 hvs
    exact ⟨_, bind_ok.2 ⟨w', hw', map_ok.2 ⟨vs', hvs', rfl⟩⟩, hsame⟩

theorem visit_carries {I : F64OfInt} {f g : Ty → Node → Res DeErr DVal} {t : Ty} {c c' : Call} (hcc : SameCall c c')
    (h1 : ∀ t' n, c.child n → sizeOf t' ≤ sizeOf t → Carries (f t' n) (g t' n))
    (h2 : ∀ t' n, c.wraps n → sizeOf t' < sizeOf t → Carries (f t' n) (g t' n))
    (h3 : t = .ignored → ∀ n, ¬ c.wraps n) : Carries (visit I f t c) (visit I g t c') := by
  cases hcc with
  | leaf _ hc => exact visit_leaf_carries hc h1 h2 h3
  | object a hs =>
    cases t with
    | map t => exact (map_carries hs fun k n hk => h1 t n ⟨k, hk⟩ (by simp)).1
    | struct fs => exact (map_carries hs fun k n hk => h1 _ n ⟨k, hk⟩ sizeOf_field).2.2 fs
    | ignored => exact (map_carries hs fun k n hk => h1 .ignored n ⟨k, hk⟩ (by simp)).2.1
    | any => exact (map_carries hs fun k n hk => h1 .any n ⟨k, hk⟩ (by simp)).1
    | _ => exact fun v h => ⟨v, h, .refl v⟩
  | body a a' hs =>
    cases t with
    | map t => exact (map_carries hs fun k n hk => h1 t n ⟨k, hk⟩ (by simp)).1
    | struct fs => exact (map_carries hs fun k n hk => h1 _ n ⟨k, hk⟩ sizeOf_field).2.2 fs
    | ignored => exact (map_carries hs fun k n hk => h1 .ignored n ⟨k, hk⟩ (by simp)).2.1
    | any => exact (map_carries hs fun k n hk => h1 .any n ⟨k, hk⟩ (by simp)).1
    | _ => exact fun v h => ⟨v, h, .refl v⟩

theorem deserialize_carries (P : F64Parse) (I : F64OfInt) (ord ord' : HashOrder) :
    ∀ (N : Nat) (t : Ty) (n : Node), sizeOf t + n.measure < N →
      Carries (deserialize P I ord t n) (deserialize P I ord' t n) := by
  intro N
  induction N with
  | zero => intros; omega
  | succ N ih =>
    intro t n hN v hv
    rw [deserialize_eq] at hv ⊢
    obtain ⟨c, hc, hv⟩ := bind_ok.1 hv
    obtain ⟨c', hc', hcc⟩ := node_call ord' hc
    obtain ⟨i1, i2⟩ := deserialize_child hc
    obtain ⟨v', hv', hs⟩ := visit_carries (g := deserialize P I ord') hcc
      (fun t' m hm ht => ih t' m (by have := i1 m hm; omega))
      (fun t' m hm ht => ih t' m (by have := (i2 m hm).1; subst this; omega))
      (fun ht m hm => by
        subst ht
        rcases (i2 m hm).2 with h | h <;> cases h) v hv
    exact ⟨v', bind_ok.2 ⟨c', hc', hv'⟩, hs⟩

end Verif
