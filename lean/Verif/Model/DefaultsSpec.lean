import Verif.Model.Defaults
/-!
# What the store of default values is meant to be

A map from names to values, written from `man/gensio_add_default.3`, without memory, lists or pointers.  What a text means
(`taken`) is what the code takes it for; the theorems about `taken` say where that is not what the manual says.
-/
namespace Gensio.Defaults

/-- A value. -/
inductive V
  | int (z : Int)
  | str (t : Option (List UInt8))
  | data (t : Option (List UInt8))
deriving DecidableEq, Repr

/-- All about one default: the value it was made with, the value set for all classes, the values set for a class. -/
structure Info where
  user : Bool
  ty : Ty
  min : Int
  max : Int
  enums : List (List UInt8 × Int)
  dflt : V
  glob : Option V
  cls : String → Option V

/-- The store. -/
abbrev M := String → Option Info

/-- A C string is what comes before the NUL. -/
def cstr (t : List UInt8) : List UInt8 := t.takeWhile (· ≠ 0)

/-- The value a default is made with. -/
def made (ty : Ty) (strval : Option (List UInt8)) (intval : Int) : V :=
  match ty with
  | .str => .str (strval.map cstr)
  | .data => .data (strval.map (·.take intval.toNat))
  | _ => .int intval

/-- The number a text is taken for: the whole text must be a number, the low 32 bits count. -/
def number (t : List UInt8) : Option Int :=
  match CLib.strtoul10 t with
  | (n, []) => if t = [] then none else some (toInt n)
  | _ => none

/-- The value that is set. -/
def taken (ty : Ty) (min max : Int) (enums : List (List UInt8 × Int)) (strval : Option (List UInt8)) (intval : Int) :
    Except Err V :=
  match ty, strval with
  | .int, none => .ok (.int intval)
  | .int, some t =>
    match number t with
    | none => .error .inval
    | some z => if min ≤ z ∧ z ≤ max then .ok (.int z) else .error .range
  | .bool, none => .ok (.int (if intval = 0 then 0 else 1))
  | .bool, some t =>
    if t ∈ [trueLc, trueUc] then .ok (.int 1)
    else if t ∈ [falseLc, falseUc] then .ok (.int 0)
    else match number t with
      | none => .error .inval
      | some z => .ok (.int z)
  | .enum, none => .error .inval
  | .enum, some t =>
    match enums.lookup t with
    | none => .error .inval
    | some z => .ok (.int z)
  | .str, t => .ok (.str (t.map cstr))
  | .data, t => if intval < 0 then .error .inval else .ok (.data (some ((t.getD []).take intval.toNat)))

/-- The map with another value at one name. -/
def M.at (m : M) (name : String) (i : Option Info) : M := fun n => if n = name then i else m n

/-- The value set for a class or for all. -/
def Info.with (i : Info) (cls : Option String) (v : V) : Info :=
  match cls with
  | none => { i with glob := some v }
  | some c => { i with cls := fun x => if x = c then some v else i.cls x }

/-- Everything that was set is forgotten. -/
def M.clear (m : M) : M := fun n => (m n).map fun i => { i with glob := none, cls := fun _ => none }

/-- The default that the library itself sets for a class: `reuseaddr` is false for UDP (:2612-2615). -/
def M.udp (m : M) : M :=
  m.at "reuseaddr" ((m "reuseaddr").map fun i => i.with (some "udp") (.int 0))

/-- A value may be asked for as its own type, an enum and a bool also as an int. -/
def askable (ty want : Ty) : Bool := ty = want || (want = .int && (ty = .enum || ty = .bool))

/-- The value that is in effect: the one of the class, or the one for all, or the one the default was made with. -/
def Info.value (i : Info) (cls : Option String) (classonly : Bool) : Option V :=
  match cls.bind i.cls with
  | some v => some v
  | none => if classonly then none else some (i.glob.getD i.dflt)

/-- A value as an answer. -/
def V.ans : V → Ans
  | .int z => .int z
  | .str t => .str t
  | .data t => .data t

open Classical in
/-- What each call does and answers if there is memory. -/
noncomputable def M.call (m : M) : Op → M × Ans
  | .add name ty strval intval min max enums =>
    match m name with
    | some _ => (m, .err .exists)
    | none => (m.at name (some ⟨true, ty, min, max, enums, made ty strval intval, none, fun _ => none⟩), .err .ok)
  | .set cls name strval intval =>
    match m name with
    | none => (m, .err .notfound)
    | some i =>
      match taken i.ty i.min i.max i.enums strval intval with
      | .error e => (m, .err e)
      | .ok v => (m.at name (some (i.with cls v)), .err .ok)
  | .get cls name classonly ty =>
    match m name with
    | none => (m, .err .notfound)
    | some i =>
      if !askable i.ty ty then (m, .err .inval)
      else match i.value cls classonly with
        | none => (m, .err .notfound)
        | some v => (m, v.ans)
  | .del (some c) name _ =>
    match m name with
    | none => (m, .err .notfound)
    | some i =>
      match i.cls c with
      | none => (m, .err .notfound)
      | some _ => (m.at name (some { i with cls := fun x => if x = c then none else i.cls x }), .err .ok)
  | .del none name delclasses =>
    match m name with
    | none => (m, .err .notfound)
    | some i =>
      if !i.user then (m, .err .notsup)
      else if delclasses = false ∧ ∃ c, (i.cls c).isSome then (m, .err .inuse)
      else (m.at name none, .err .ok)
  | .reset => (m.clear, .err .ok)
  | .cleanup => (m.clear.udp, .err .ok)
  | .release _ => (m, .err .ok)

end Gensio.Defaults
