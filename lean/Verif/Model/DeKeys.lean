import Verif.Model.DeTypes
/-!
# Maps whose keys are not strings

`HashMap<K, T>` (and `BTreeMap<K, T>`) for any key type: serde's visitor asks the map access for a key with `K`'s seed, then for
the value (serde 1.0.101, `impl Deserialize for HashMap`).
-/
set_option autoImplicit false

namespace Verif

/-- `while let Some((k, v)) = map.next_entry()? { … }` with a seed for the keys; the map accesses are serde/de/object.rs:33-59 and
serde/de/body.rs:128-166 -/
def pairLoop (key : CowStr → Res DeErr DVal) (f : Node → Res DeErr DVal) : Nat → MapAcc → Res DeErr (List (DVal × DVal))
  | 0, _ => .diverge
  | fuel + 1, a =>
    let r := a.nextKey key
    r.1.bind fun
      | none => .ok []
      | some k =>
        let r' := r.2.nextValue f
        r'.1.bind fun v => (pairLoop key f fuel r'.2).map ((k, v) :: ·)

/-- `HashMap<K, T>::deserialize(node)`: `deserialize_map`, which all deserializers forward to `deserialize_any`
(serde/de/expression.rs:72-76, serde/de/body.rs:72-76); the visitor accepts maps only. The result: what is inserted, in order. -/
noncomputable def deserializeMapOf (P : F64Parse) (I : F64OfInt) (ord : HashOrder) (K t : Ty) (n : Node) :
    Res DeErr (List (DVal × DVal)) :=
  (n.deserialize P ord .forward).bind fun
    | .mapObject a => pairLoop (fun k => deserialize P I ord K (.key k)) (deserialize P I ord t) ((MapAcc.object a).remaining + 1) (.object a)
    | .mapBody a => pairLoop (fun k => deserialize P I ord K (.key k)) (deserialize P I ord t) ((MapAcc.body a).remaining + 1) (.body a)
    | _ => .error .custom

/-- serde/de/body.rs:197-203 `from_str` into a `HashMap<K, T>` -/
noncomputable def deFromStrMapOf (U : CharClass) (P : F64Parse) (I : F64OfInt) (ord : HashOrder) (K t : Ty) (s : Str) :
    Res DeErr (List (DVal × DVal)) :=
  match parseStr U s with
  | .ok b => deserializeMapOf P I ord K t (.body b)
  | .error e => .error (.parse e)
  | .panic => .panic
  | .diverge => .diverge

end Verif
