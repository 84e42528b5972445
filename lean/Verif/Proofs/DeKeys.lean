import Verif.Model.DeKeys
import Verif.Spec.Keys
import Verif.Props.Reads
import Verif.Proofs.Utf8
/-! # Maps whose keys are not strings -/
set_option autoImplicit false

namespace Verif
open Spec

/-- processing the entries in order -/
def runPairs (key : CowStr → Res DeErr DVal) (f : Node → Res DeErr DVal) :
    List (CowStr × Node) → Stop → Res DeErr (List (DVal × DVal))
  | [], .done => .ok []
  | [], .error e => .error e
  | [], .panicked => .panic
  | (k, n) :: es, s => (key k).bind fun kv => (f n).bind fun v => (runPairs key f es s).map ((kv, v) :: ·)

theorem nextKey_seed (a : MapAcc) (seed : CowStr → Res DeErr DVal) :
    a.nextKey seed = ((a.nextKey .ok).1.bind (fun | none => .ok none | some k => (seed k).map some), (a.nextKey .ok).2) := by
  rcases a with ⟨l, v, seen⟩ | ⟨l, v, seen⟩
  · cases l with
    | nil => rfl
    | cons p l =>
      obtain ⟨k, x⟩ := p
      cases k with
      | expr k => rfl
      | ident k =>
        simp only [MapAcc.nextKey, ObjectMapAccess.nextKey, ObjKey.asStr]
        split
        · rfl
        · simp only [Res.bind, Res.map]; cases seed k <;> rfl
  · cases l with
    | nil => rfl
    | cons p l =>
      obtain ⟨k, x⟩ := p
      simp only [MapAcc.nextKey, BodyMapAccess.nextKey]
      split
      · cases x <;> rfl
      · simp only [Res.bind, Res.map]; cases seed k <;> rfl

theorem value_after_key {a a' a'' : MapAcc} {k : CowStr} {r : Res DeErr Node} (h1 : a.nextKey .ok = (.ok (some k), a'))
    (h2 : a'.nextValue .ok = (r, a'')) : (∃ n, r = .ok n) ∧ a.remaining = a''.remaining + 1 := by
  rcases nextKey_cases a with ⟨-, i2⟩ | ⟨k', n', b, i1, -, i3, i4, -⟩ | ⟨r, b, i1, i2, -, i4, -⟩
  · rw [h1] at i2; cases i2
  · rw [h1] at i1; cases i1
    rcases nextValue_cases a' with ⟨j0, j⟩ | ⟨n, c, -, j, -, j4, -⟩
    · rw [i3] at j0; cases j0
    · rw [h2] at j; cases j; exact ⟨⟨n, rfl⟩, by omega⟩
  · rw [h1] at i1; cases i1; rcases i2 with ⟨e, i2⟩ | i2 <;> cases i2

theorem pairLoop_eq {key : CowStr → Res DeErr DVal} {f : Node → Res DeErr DVal} {a : MapAcc} {es : List (CowStr × Node)} {s : Stop}
    (h : Drains a es s) : ∀ {fuel : Nat}, a.remaining < fuel → pairLoop key f fuel a = runPairs key f es s := by
  induction h with
  | done a a' h1 =>
    intro fuel hf
    cases fuel with
    | zero => omega
    | succ fuel => simp [pairLoop, nextKey_seed, h1, Res.bind, runPairs]
  | keyError a a' e h1 =>
    intro fuel hf
    cases fuel with
    | zero => omega
    | succ fuel => simp [pairLoop, nextKey_seed, h1, Res.bind, runPairs]
  | keyPanic a a' h1 =>
    intro fuel hf
    cases fuel with
    | zero => omega
    | succ fuel => simp [pairLoop, nextKey_seed, h1, Res.bind, runPairs]
  | valueError a a' a'' k e h1 h2 => obtain ⟨⟨n, h⟩, -⟩ := value_after_key h1 h2; cases h
  | valuePanic a a' a'' k h1 h2 => obtain ⟨⟨n, h⟩, -⟩ := value_after_key h1 h2; cases h
  | entry a a' a'' k n es s h1 h2 h3 ih =>
    intro fuel hf
    have hr := (value_after_key h1 h2).2
    cases fuel with
    | zero => omega
    | succ fuel =>
      simp only [pairLoop, nextKey_seed, h1, runPairs, Res.bind, Res.map, nextValue_seed, h2]
      rw [ih (by omega)]
      cases key k <;> rfl

variable {P : F64Parse} {I : F64OfInt} {ord : HashOrder}

theorem key_reads {K : Ty} {s : CowStr} :
    (∀ v, deserialize P I ord K (.key s) = .ok v ↔ KeyReads s.str K v) ∧
      ((¬ ∃ v, KeyReads s.str K v) → deserialize P I ord K (.key s) = .error .custom) := by
  rw [deserialize_eq]
  show (∀ v, (keyDeserialize K.hint s).bind (visit I (deserialize P I ord) K) = .ok v ↔ _) ∧ (_ → (keyDeserialize K.hint s).bind (visit I (deserialize P I ord) K) = _)
  obtain ⟨o, s⟩ := s
  cases K with
  | enum vs =>
    simp only [keyDeserialize, Ty.hint, Res.bind, visit, visitVariant]
    cases hf : field? s vs with
    | none =>
      refine ⟨fun v => ⟨fun h => (by cases h), fun h => ?_⟩, fun _ => rfl⟩
      cases h with | enum _ h => rw [hf] at h; cases h
    | some b =>
      cases b with
      | true => exact ⟨fun v => ⟨fun h => by cases h; exact .enum vs hf, fun h => by cases h; rfl⟩, fun h => absurd ⟨_, .enum vs hf⟩ h⟩
      | false =>
        refine ⟨fun v => ⟨fun h => (by cases h), fun h => ?_⟩, fun _ => rfl⟩
        cases h with | enum _ h => rw [hf] at h; cases h
  | string =>
    cases o <;> exact ⟨fun v => ⟨fun h => by cases h; exact .string, fun h => by cases h; rfl⟩, fun h => absurd ⟨_, .string⟩ h⟩
  | any =>
    cases o <;> exact ⟨fun v => ⟨fun h => by cases h; exact .any, fun h => by cases h; rfl⟩, fun h => absurd ⟨_, .any⟩ h⟩
  | ignored =>
    cases o <;> exact ⟨fun v => ⟨fun h => by cases h; exact .ignored, fun h => by cases h; rfl⟩, fun h => absurd ⟨_, .ignored⟩ h⟩
  | bytes u =>
    cases o <;> simp only [keyDeserialize, Ty.hint, Res.bind, if_true, visit, strBytes_eq] <;>
      exact ⟨fun v => ⟨fun h => by cases h; exact .bytes u, fun h => by cases h; rfl⟩, fun h => absurd ⟨_, .bytes u⟩ h⟩
  | char =>
    rcases s with _ | ⟨c, _ | ⟨d, s⟩⟩
    · cases o <;> refine ⟨fun v => ⟨fun h => (by cases h), fun h => ?_⟩, fun _ => rfl⟩ <;> cases h with | char c h => cases h
    · cases o <;> refine ⟨fun v => ⟨fun h => by cases h; exact .char c rfl, fun h => ?_⟩, fun h => absurd ⟨_, .char c rfl⟩ h⟩ <;>
        cases h with | char c h => cases h; rfl
    · cases o <;> refine ⟨fun v => ⟨fun h => (by cases h), fun h => ?_⟩, fun _ => rfl⟩ <;> cases h with | char c h => cases h
  | _ => cases o <;> exact ⟨fun v => ⟨fun h => (by cases h), fun h => (by cases h)⟩, fun _ => rfl⟩

end Verif
