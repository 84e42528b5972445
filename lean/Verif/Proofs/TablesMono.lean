import Verif.Proofs.Tables
import Verif.Proofs.Laid
import Verif.Proofs.OldLaid
import Verif.Proofs.LineEnds
/-! # Documents stay documents when the Unicode tables grow -/
set_option autoImplicit false

namespace Verif
open PRes Spec

variable {U U' : CharClass} {P : F64Parse}

theorem identChar_ascii {c : Char} (h : c.toNat < 128) : IdentChar U c ↔ IdentChar U' c := by
  unfold IdentChar; rw [U.idContinue_ascii c h, U'.idContinue_ascii c h]

theorem identStart_ascii {c : Char} (h : c.toNat < 128) : IdentStart U c ↔ IdentStart U' c := by
  unfold IdentStart; rw [U.idStart_ascii c h, U'.idStart_ascii c h]

theorem ident_extends (hu : Extends U U') {i : Str} (h : IsIdent U i) : IsIdent U' i := by
  cases h with
  | mk c cs hc hcs =>
    exact .mk c cs (hc.imp (hu.idStart c) id) fun d hd => (hcs d hd).imp (hu.idContinue d) id

theorem heredoc_extends (hu : Extends U U') {s r : Str} {v : CowStr} (h : Heredoc U s v r) : Heredoc U' s v r := by
  have hm : ∀ {m : Str}, (∀ c ∈ m, MarkerChar U c) → ∀ c ∈ m, MarkerChar U' c := fun h c hc => (h c hc).imp (hu.alnum c) id
  cases h with
  | empty ind m s blanks rest h1 h2 h3 => exact .empty ind m s blanks _ h1 (hm h2) h3
  | content ind m e s ct blanks rest v h1 h2 h3 h4 h5 h6 => exact .content ind m e s ct blanks _ _ h1 (hm h2) h3 h4 h5 h6

theorem ascii_layoutStart {c : Char} (h : LayoutStart c) : c.toNat < 128 := by
  rcases h with rfl | rfl | rfl | rfl | rfl | rfl <;> decide

theorem ascii_num {c : Char} (h : NumChar c) : c.toNat < 128 := by
  unfold NumChar IsDig at h
  rcases h with ⟨-, h⟩ | rfl | rfl | rfl | rfl | rfl <;> try decide
  have : c.toNat ≤ '9'.toNat := h
  have h9 : '9'.toNat = 57 := by decide
  omega

theorem head_mono {A B : Char → Prop} {s : Str} (h : Head A s) (hab : ∀ c, A c → B c) : Head B s := by
  obtain ⟨c, t, e, hc⟩ := h; exact ⟨c, t, e, hab c hc⟩

/-- An expression that ends where it ends begins with an ASCII character. -/
theorem laidExpr_ascii {h : Option Str} {e : Expr} {t : Str} (hx : LaidExpr U h e t) : Head (fun c => c.toNat < 128) t := by
  have hlay : ∀ {l s : Str} {c : Char}, AnyLayout l → c.toNat < 128 → Head (fun c => c.toNat < 128) (l ++ c :: s) := by
    intro l s c hl hc
    cases hl with
    | nil => exact ⟨_, _, rfl, hc⟩
    | cons i l hi _ => rw [List.append_assoc]; exact head_mono (layoutItem_head hi) fun c => ascii_layoutStart
  cases hx with
  | null => exact ⟨_, _, rfl, by decide⟩
  | true => exact ⟨_, _, rfl, by decide⟩
  | false => exact ⟨_, _, rfl, by decide⟩
  | number _ n hn =>
    cases t with
    | nil => exact absurd rfl (isNumber_ne_nil hn)
    | cons c t => exact ⟨c, t, rfl, ascii_num (isNumber_chars hn c (by simp))⟩
  | quoted => exact ⟨_, _, rfl, by decide⟩
  | heredoc _ e' v he hh =>
    have : ∃ u, t ++ e' = '<' :: '<' :: u := by
      generalize hz : t ++ e' = z at hh
      cases hh <;> exact ⟨_, rfl⟩
    obtain ⟨u, hu⟩ := this
    cases t with
    | nil => cases he <;> cases hu
    | cons c t => injection hu with hu _; subst hu; exact ⟨_, _, rfl, by decide⟩
  | tuple => exact ⟨_, _, rfl, by decide⟩
  | object l es s h1 h2 => exact hlay h1 (by decide)
  | bracket l m n t _ _ h1 h2 h3 h4 h5 =>
    simp only [List.append_assoc, List.cons_append]
    exact hlay h1 (by decide)

theorem laidExpr_extends (hu : Extends U U') {h : Option Str} {e : Expr} {s : Str} (x : LaidExpr U h e s) : LaidExpr U' h e s := by
  refine LaidExpr.rec
    (motive_1 := fun h e s _ => LaidExpr U' h e s)
    (motive_2 := fun es s _ => LaidTuple U' es s)
    (motive_3 := fun es s _ => LaidTail U' es s)
    (motive_4 := fun k s _ => LaidKey U' k s)
    (motive_5 := fun h k e s _ => LaidPair U' h k e s)
    (motive_6 := fun es s _ => LaidObject U' es s)
    ?_ ?_ ?_ ?_ ?_ ?_ ?_ ?_ ?_ ?_ ?_ ?_ ?_ ?_ ?_ ?_ ?_ ?_ ?_ ?_ x
  · exact .null
  · exact .true
  · exact .false
  · exact fun t n h => .number t n h
  · exact fun src v h => .quoted src v h
  · exact fun t e v he hh => .heredoc t e v he (heredoc_extends hu hh)
  · exact fun es s _ ih => .tuple es s ih
  · exact fun l es s hl _ ih => .object l es s hl ih
  · exact fun l m n t h e hl hm _ hn hx ih => .bracket l m n t h e hl hm ih hn hx
  · exact fun s h => .empty s h
  · exact fun l t s h e es hl _ _ hx ih1 ih2 => .elems l t s h e es hl ih1 ih2 hx
  · exact fun s h => .last s h
  · exact fun l m t s h e es hl hm _ _ hx ih1 ih2 => .more l m t s h e es hl hm ih1 ih2 hx
  · exact fun i h => .ident i (ident_extends hu h)
  · intro t e h1 h2 h3 ih
    refine .expr t e ?_ h2 ih
    obtain ⟨c, u, rfl, hc⟩ := laidExpr_ascii ih
    rw [head_cons] at h1 ⊢
    exact fun h => h1 ((identStart_ascii hc).2 h)
  · exact fun l ks m n t h k e hl _ hm hn _ ih1 ih2 => .mk l ks m n t h k e hl ih1 hm hn ih2
  · exact fun l h => .close l h
  · exact fun p l s k e es _ hl _ ih1 ih2 => .comma p l s k e es ih1 hl ih2
  · exact fun p l n s h k e es _ hl hn hx _ ih1 ih2 => .newline p l n s h k e es ih1 hl hn hx ih2
  · exact fun p l k e _ hl ih => .last p l k e ih hl

theorem laidAttribute_extends (hu : Extends U U') {h : Option Str} {k : CowStr} {e : Expr} {s : Str} (x : LaidAttribute U h k e s) :
    LaidAttribute U' h k e s := by
  cases x with
  | mk i l m t n h e hi hl hm hx hn hh => exact .mk i l m t n h e (ident_extends hu hi) hl hm (laidExpr_extends hu hx) hn hh

theorem laidLabels_ascii {ls : List BlockLabel} {s : Str} (x : LaidLabels U ls s) :
    Head (fun c => c.toNat < 128 ∨ IdentChar U c) s := by
  have hin : ∀ {l s : Str}, AnyInline l → Head (fun c => c.toNat < 128 ∨ IdentChar U c) s →
      Head (fun c => c.toNat < 128 ∨ IdentChar U c) (l ++ s) := by
    intro l s hl hs
    cases hl with
    | nil => exact hs
    | cons i l hi _ =>
      rw [List.append_assoc]; exact head_mono (layoutItem_head (inlineItem_layout hi)) fun c h => .inl (ascii_layoutStart h)
  cases x with
  | «open» l hl => exact hin hl ⟨_, _, rfl, .inl (by decide)⟩
  | ident l i s ls hl hi hh hs =>
    rw [List.append_assoc]
    refine hin hl ?_
    cases hi with
    | mk c cs hc _ => exact ⟨c, _, rfl, .inr (hc.elim (fun h => .inl (U.idStart_idContinue c h))
        fun h => .inl (by subst h; rw [U.idContinue_ascii _ (by decide)]; decide))⟩
  | string l src v s ls hl hc hs =>
    rw [List.append_assoc]
    exact hin hl ⟨_, _, rfl, .inl (by decide)⟩

theorem not_identChar_extends {s : Str} (h : Head (fun c => c.toNat < 128 ∨ IdentChar U c) s) (hn : ¬ Head (IdentChar U) s) :
    ¬ Head (IdentChar U') s := by
  obtain ⟨c, t, rfl, hc⟩ := h
  rw [head_cons] at hn ⊢
  rcases hc with hc | hc
  · exact fun h => hn ((identChar_ascii hc).2 h)
  · exact absurd hc hn

theorem laidLabels_extends (hu : Extends U U') {ls : List BlockLabel} {s : Str} (x : LaidLabels U ls s) : LaidLabels U' ls s := by
  induction x with
  | «open» l h => exact .open l h
  | ident l i s ls hl hi hh hs ih =>
    exact .ident l i s ls hl (ident_extends hu hi) (not_identChar_extends (laidLabels_ascii hs) hh) ih
  | string l src v s ls hl hc hs ih => exact .string l src v s ls hl hc ih

theorem laidHeader_extends (hu : Extends U U') {i : CowStr} {ls : List BlockLabel} {s : Str} (x : LaidHeader U i ls s) :
    LaidHeader U' i ls s := by
  cases x with
  | mk i s ls hi hh hs =>
    exact .mk i s ls (ident_extends hu hi) (not_identChar_extends (laidLabels_ascii hs) hh) (laidLabels_extends hu hs)

theorem laidBody_extends (hu : Extends U U') : (∀ {h el s}, LaidElement U h el s → LaidElement U' h el s) ∧
    ∀ {b s}, LaidBody U b s → LaidBody U' b s := by
  have h1 : ∀ h k e s, LaidAttribute U h k e s → LaidElement U' h (.attribute k e) s :=
    fun h k e s x => .attribute h k e s (laidAttribute_extends hu x)
  have h2 : ∀ i ls s l m, LaidHeader U i ls s → AnyInline l → AnyInline m → LaidElement U' none (.block i ls []) (s ++ l ++ '}' :: m) :=
    fun i ls s l m h hl hm => .emptyBlock i ls s l m (laidHeader_extends hu h) hl hm
  have h3 : ∀ i ls s l a m k e, LaidHeader U i ls s → AnyInline l → LaidAttribute U none k e a → AnyInline m →
      LaidElement U' none (.block i ls [.attribute k e]) (s ++ l ++ a ++ '}' :: m) :=
    fun i ls s l a m k e h hl ha hm => .oneLineBlock i ls s l a m k e (laidHeader_extends hu h) hl (laidAttribute_extends hu ha) hm
  have h4 : ∀ i ls s l n t m b, LaidHeader U i ls s → AnyInline l → LineEnds n → LaidBody U b t → AnyInline m →
      LaidBody U' b t → LaidElement U' none (.block i ls b) (s ++ l ++ n ++ t ++ '}' :: m) :=
    fun i ls s l n t m b h hl hn _ hm ih => .block i ls s l n t m b (laidHeader_extends hu h) hl hn ih hm
  have h5 : ∀ l, AnyLayout l → LaidBody U' [] l := fun l h => .done l h
  have h6 : ∀ l s n t h el b, AnyLayout l → LaidElement U h el s → LineEnds n → Next h n → LaidBody U b t →
      LaidElement U' h el s → LaidBody U' b t → LaidBody U' (el :: b) (l ++ s ++ n ++ t) :=
    fun l s n t h el b hl _ hn hx _ ih1 ih2 => .elem l s n t h el b hl ih1 hn hx ih2
  exact ⟨fun x => LaidElement.rec (motive_1 := fun h el s _ => LaidElement U' h el s) (motive_2 := fun b s _ => LaidBody U' b s)
      h1 h2 h3 h4 h5 h6 x,
    fun x => LaidBody.rec (motive_1 := fun h el s _ => LaidElement U' h el s) (motive_2 := fun b s _ => LaidBody U' b s)
      h1 h2 h3 h4 h5 h6 x⟩

theorem laidDocument_extends (hu : Extends U U') {b : Body} {s : Str} (x : LaidDocument U b s) : LaidDocument U' b s := by
  cases x with
  | lines b s h => exact .lines _ _ ((laidBody_extends hu).2 h)
  | last b s el t h1 h2 => exact .last b s el t ((laidBody_extends hu).2 h1) ((laidBody_extends hu).1 h2)

/-! ## legacy -/

theorem laidOldKey_extends (hu : Extends U U') {k : Key} {s : Str} (x : LaidOldKey U k s) : LaidOldKey U' k s := by
  cases x with
  | ident i h => exact .ident _ (ident_extends hu h)
  | string src v h => exact .string src v h

theorem laidEntries_extends (hu : Extends U U') : (∀ {es s}, LaidEntries U P es s → LaidEntries U' P es s) ∧
    ∀ {h k v s}, LaidEntry U P h k v s → LaidEntry U' P h k v s := by
  have null : LaidValue U' P none .null ['n', 'u', 'l', 'l'] := .null
  have tr : LaidValue U' P none (.boolean true) ['t', 'r', 'u', 'e'] := .true
  have fa : LaidValue U' P none (.boolean false) ['f', 'a', 'l', 's', 'e'] := .false
  have number : ∀ t n v, IsNumber t n → NumberValue P t v → LaidValue U' P none v t := fun t n v h1 h2 => .number t n v h1 h2
  have quoted : ∀ src v, Content Plain src v ['"'] → LaidValue U' P none (.string v) ('"' :: src ++ ['"']) := fun src v h => .quoted src v h
  have heredoc : ∀ t e v, Eol e → Heredoc U (t ++ e) v e → LaidValue U' P (some e) (.string v.str) t :=
    fun t e v h1 h2 => .heredoc t e v h1 (heredoc_extends hu h2)
  have list : ∀ vs s, LaidListBody U P vs s → LaidListBody U' P vs s → LaidValue U' P none (.list vs) ('[' :: s) :=
    fun vs s _ ih => .list vs s ih
  have map : ∀ l es s, AnyLayout l → LaidEntries U P es s → LaidEntries U' P es s →
      LaidValue U' P none (.object [.unmerged es]) (l ++ '{' :: s ++ ['}']) := fun l es s hl _ ih => .map l es s hl ih
  have empty : ∀ s, LaidTupleEnd s → LaidListBody U' P [] s := fun s h => .empty s h
  have elems : ∀ l t s h v vs, AnyLayout l → LaidValue U P h v t → LaidListTail U P vs s → Next h s → LaidValue U' P h v t →
      LaidListTail U' P vs s → LaidListBody U' P (v :: vs) (l ++ t ++ s) :=
    fun l t s h v vs hl _ _ hx ih1 ih2 => .elems l t s h v vs hl ih1 ih2 hx
  have last : ∀ s, LaidTupleEnd s → LaidListTail U' P [] s := fun s h => .last s h
  have more : ∀ l m t s h v vs, AnyLayout l → AnyLayout m → LaidValue U P h v t → LaidListTail U P vs s → Next h s →
      LaidValue U' P h v t → LaidListTail U' P vs s → LaidListTail U' P (v :: vs) (l ++ ',' :: m ++ t ++ s) :=
    fun l m t s h v vs hl hm _ _ hx ih1 ih2 => .more l m t s h v vs hl hm ih1 ih2 hx
  have done : ∀ l, AnyLayout l → LaidEntries U' P [] l := fun l h => .done l h
  have entry : ∀ l s n t h k v es, AnyLayout l → LaidEntry U P h k v s → LaidEntryEnd n → Next h n → LaidEntries U P es t →
      LaidEntry U' P h k v s → LaidEntries U' P es t → LaidEntries U' P ((k, v) :: es) (l ++ s ++ n ++ t) :=
    fun l s n t h k v es hl _ hn hx _ ih1 ih2 => .entry l s n t h k v es hl ih1 hn hx ih2
  have attr : ∀ ks l m t n h k v, LaidOldKey U k ks → AnyInline l → AnyInline m → LaidValue U P h v t → AnyInline n →
      (h ≠ none → n = []) → LaidValue U' P h v t → LaidEntry U' P h k v (ks ++ l ++ '=' :: m ++ t ++ n) :=
    fun ks l m t n h k v hk hl hm _ hn hx ih => .attribute ks l m t n h k v (laidOldKey_extends hu hk) hl hm ih hn hx
  have emap : ∀ i l s n es, IsIdent U i → AnyLayout l → LaidEntries U P es s → AnyInline n → LaidEntries U' P es s →
      LaidEntry U' P none (.identifier (.borrowed i)) (.object [.unmerged es]) (i ++ l ++ '{' :: s ++ '}' :: n) :=
    fun i l s n es hi hl _ hn ih => .map i l s n es (ident_extends hu hi) hl ih hn
  have eblock : ∀ i ps l s n ls es, IsIdent U i → LaidOldLabels ls ps → ls ≠ [] → AnyLayout l → LaidEntries U P es s →
      AnyInline n → LaidEntries U' P es s →
      LaidEntry U' P none (.identifier (.borrowed i)) (.block (.unmerged [(ls, .unmerged es)])) (i ++ ps ++ l ++ '{' :: s ++ '}' :: n) :=
    fun i ps l s n ls es hi hp hne hl _ hn ih => .block i ps l s n ls es (ident_extends hu hi) hp hne hl ih hn
  exact ⟨fun x => LaidEntries.rec
      (motive_1 := fun h v t _ => LaidValue U' P h v t) (motive_2 := fun vs s _ => LaidListBody U' P vs s)
      (motive_3 := fun vs s _ => LaidListTail U' P vs s) (motive_4 := fun es s _ => LaidEntries U' P es s)
      (motive_5 := fun h k v s _ => LaidEntry U' P h k v s)
      null tr fa number quoted heredoc list map empty elems last more done entry attr emap eblock x,
    fun x => LaidEntry.rec
      (motive_1 := fun h v t _ => LaidValue U' P h v t) (motive_2 := fun vs s _ => LaidListBody U' P vs s)
      (motive_3 := fun vs s _ => LaidListTail U' P vs s) (motive_4 := fun es s _ => LaidEntries U' P es s)
      (motive_5 := fun h k v s _ => LaidEntry U' P h k v s)
      null tr fa number quoted heredoc list map empty elems last more done entry attr emap eblock x⟩

theorem laidOldDocument_extends (hu : Extends U U') {es : List (Key × Value)} {s : Str} (x : LaidOldDocument U P es s) :
    LaidOldDocument U' P es s := by
  cases x with
  | lines es s h => exact .lines _ _ ((laidEntries_extends hu).1 h)
  | last es s k v t h1 h2 => exact .last es s k v t ((laidEntries_extends hu).1 h1) ((laidEntries_extends hu).2 h2)

end Verif
