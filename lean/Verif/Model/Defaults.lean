import Verif.Model.CLib
/-!
# The store of default values

`lib/gensio.c` :2449-2471 (structures), :2491-2592 (the table of built-in defaults), :2602-2616, :2695-3246.

Every function runs under one lock (`deflock`), so the calls are steps of one machine.  Names of defaults and classes are only
compared (`strcmp`), they are `String`; values are bytes.  Blocks of memory have numbers; `live` holds the blocks that are
allocated.  A result `none` is a fault: memory that is not allocated is freed, memory outside a block is written, or an `int`
overflows.  `fail` is the number of the allocation of a call that fails (all later ones do not happen, every call gives up at
its first failed allocation).
-/
namespace Gensio.Defaults

/-- `enum gensio_default_type`, `include/gensio/gensio.h` :569-575. -/
inductive Ty | int | bool | enum | str | data
deriving DecidableEq, Repr

/-- The error numbers used here, `include/gensio/gensio_err.h`. -/
inductive Err | ok | nomem | notsup | inval | notfound | exists | range | inuse
deriving DecidableEq, Repr

/-- A pointer to characters: the block (none for a constant of the program) and what is in it, the NUL at the end included.
Nothing is written to a block after it was filled. -/
structure Str where
  id : Option Nat
  data : List UInt8
deriving DecidableEq, Repr

/-- `struct gensio_def_val`, :2449-2452. -/
structure Val where
  str : Option Str := none
  int : Int := 0
deriving DecidableEq, Repr

/-- `struct gensio_class_def`, :2454-2458: the block of the structure, the block of the name. -/
structure Cls where
  blk : Nat
  nblk : Nat
  name : String
  val : Val
deriving DecidableEq, Repr

/-- `struct gensio_def_entry`, :2460-2471.  `own` are the blocks of the structure and of the name, `none` in the table of the
built-in defaults. -/
structure Ent where
  own : Option (Nat × Nat) := none
  name : String
  ty : Ty
  min : Int := 0
  max : Int := 0
  enums : List (List UInt8 × Int) := []
  dflt : Val := {}
  val : Val := {}
  set : Bool := false
  classes : List Cls := []
deriving DecidableEq, Repr

/-- The allocator. -/
structure Mem where
  live : List Nat := []
  next : Nat := 0
deriving DecidableEq, Repr

/-- `o->zalloc`, the `k`-th of the call. -/
def Mem.alloc (m : Mem) (fail : Option Nat) (k : Nat) : Option (Nat × Mem) :=
  if fail = some k then none else some (m.next, { live := m.next :: m.live, next := m.next + 1 })

/-- `o->free`. -/
def Mem.free (m : Mem) (i : Nat) : Option Mem :=
  if i ∈ m.live then some { m with live := m.live.erase i } else none

/-- `if (p) o->free(o, p)`; a constant must not be freed. -/
def Mem.freeStr (m : Mem) : Option Str → Option Mem
  | none => some m
  | some ⟨some i, _⟩ => m.free i
  | some ⟨none, _⟩ => none

/-- May be read. -/
def Mem.readable (m : Mem) (s : Str) : Bool :=
  match s.id with
  | some i => m.live.contains i
  | none => true

/-- `gensio_strdup` of a text, `utils.c` :20-33: what is written to the new block. -/
def dup (s : List UInt8) : List UInt8 := s.takeWhile (· ≠ 0) ++ [0]

/-- The state: `builtin_defaults`, `defaults`, whether `gensio_default_init` ran (`gensio_default_initialized`), its result
`gensio_def_init_rv`, whether `deflock` is there, and the blocks that were given to the user. -/
structure S where
  builtin : List Ent
  added : List Ent := []
  mem : Mem := {}
  user : List Nat := []
  up : Bool := false
  rv : Err := .ok
  lock : Bool := false
deriving DecidableEq, Repr

/-- `gensio_lookup_default`, :2743-2770, with `*isdefault`. -/
def S.lookup (s : S) (name : String) : Option (Bool × Ent) :=
  match s.builtin.find? (·.name = name) with
  | some e => some (true, e)
  | none => (s.added.find? (·.name = name)).map fun e => (false, e)

/-- What is written through the pointer to the first entry of that name. -/
def putEnt (name : String) (e : Ent) : List Ent → List Ent
  | [] => []
  | x :: l => if x.name = name then e :: l else x :: putEnt name e l

/-- What is written through the pointer that `gensio_lookup_default` gave. -/
def S.put (s : S) (isdef : Bool) (name : String) (e : Ent) : S :=
  if isdef then { s with builtin := putEnt name e s.builtin } else { s with added := putEnt name e s.added }

/-- What is written through the pointer to the first class of that name. -/
def putCls (name : String) (v : Val) : List Cls → List Cls
  | [] => []
  | x :: l => if x.name = name then { x with val := v } :: l else x :: putCls name v l

/-- The loop over the classes in `gensio_reset_default`, :2700-2706. -/
def freeClasses (ty : Ty) (m : Mem) : List Cls → Option Mem
  | [] => some m
  | c :: l =>
    (m.free c.nblk).bind fun m =>
      (if ty = .str then m.freeStr c.val.str else some m).bind fun m =>
        (m.free c.blk).bind fun m => freeClasses ty m l

/-- `gensio_reset_default`, :2695-2714. -/
def resetEnt (m : Mem) (e : Ent) : Option (Ent × Mem) :=
  (freeClasses e.ty m e.classes).bind fun m =>
    let e := { e with classes := [] }
    (if e.ty = .str then (m.freeStr e.val.str).map fun m => ({ e with val := { e.val with str := none } }, m)
     else some (e, m)).map fun (e, m) => ({ e with set := false }, m)

/-- The loops in `l_gensio_reset_defaults`, :2723-2726. -/
def resetList (m : Mem) : List Ent → Option (List Ent × Mem)
  | [] => some ([], m)
  | e :: l => (resetEnt m e).bind fun (e, m) => (resetList m l).map fun (l, m) => (e :: l, m)

/-- `l_gensio_reset_defaults`, :2716-2730. -/
def S.reset (s : S) : Option S :=
  if !s.lock then some s else
    (resetList s.mem s.builtin).bind fun (b, m) =>
      (resetList m s.added).map fun (a, m) => { s with builtin := b, added := a, mem := m }

/-- `gensio_add_default`, :2790-2853 (after `call_once`).  For data a negative length makes `memcpy` write outside the block
(:2831-2834; the caller must not do that), and `intval + 1` may overflow. -/
def S.add (s : S) (name : String) (ty : Ty) (strval : Option (List UInt8)) (intval min max : Int)
    (enums : List (List UInt8 × Int)) (fail : Option Nat) : Option (S × Err) :=
  match s.lookup name with
  | some _ => some (s, .exists)
  | none =>
    match s.mem.alloc fail 0 with
    | none => some (s, .nomem)
    | some (d, m) =>
      match m.alloc fail 1 with
      | none => (m.free d).map fun m => ({ s with mem := m }, .nomem)
      | some (n, m) =>
        let e : Ent := { own := some (d, n), name, ty, min, max, enums, dflt := { int := intval } }
        match strval with
        | none => some ({ s with mem := m, added := e :: s.added }, .ok)
        | some t =>
          if ty = .data ∧ (intval < 0 ∨ 2147483647 ≤ intval ∨ t.length < intval.toNat) then none else
          match m.alloc fail 2 with
          | none => (m.free n).bind fun m => (m.free d).map fun m => ({ s with mem := m }, .nomem)
          | some (i, m) =>
            let b := if ty = .data then t.take intval.toNat ++ [0] else dup t
            some ({ s with mem := m, added := { e with dflt := ⟨some ⟨some i, b⟩, intval⟩ } :: s.added }, .ok)

/-- `strtoul` stored in an `int`, :2895, :2908 (the low 32 bits). -/
def toInt (n : Nat) : Int := if n % 4294967296 < 2147483648 then (n % 4294967296 : Nat) else (n % 4294967296 : Nat) - 4294967296

/-- `"true"`, `"TRUE"`, `"false"`, `"FALSE"`. -/
def trueLc : List UInt8 := [116, 114, 117, 101]
@[inherit_doc trueLc] def trueUc : List UInt8 := [84, 82, 85, 69]
@[inherit_doc trueLc] def falseLc : List UInt8 := [102, 97, 108, 115, 101]
@[inherit_doc trueLc] def falseUc : List UInt8 := [70, 65, 76, 83, 69]

/-- The switch over the type in `l_gensio_set_default`, :2872-2948: the new string, the new `intval`.  Data with a length beyond
the bytes the caller has is a fault of the caller. -/
def conv (m : Mem) (e : Ent) (strval : Option (List UInt8)) (intval : Int) (fail : Option Nat) :
    Option (Except Err (Option Str × Int × Mem)) :=
  match e.ty with
  | .enum =>
    match strval with
    | none => some (.error .inval)
    | some t =>
      match e.enums.find? (·.1 = t) with
      | none => some (.error .inval)
      | some x => some (.ok (none, x.2, m))
  | .bool =>
    match strval with
    | some t =>
      if t = trueLc ∨ t = trueUc then some (.ok (none, 1, m))
      else if t = falseLc ∨ t = falseUc then some (.ok (none, 0, m))
      else
        let r := CLib.strtoul10 t
        if r.2 = t ∨ r.2 ≠ [] then some (.error .inval) else some (.ok (none, toInt r.1, m))
    | none => some (.ok (none, if intval ≠ 0 then 1 else 0, m))
  | .int =>
    match strval with
    | some t =>
      let r := CLib.strtoul10 t
      if r.2 = t ∨ r.2 ≠ [] then some (.error .inval)
      else if toInt r.1 < e.min ∨ e.max < toInt r.1 then some (.error .range)
      else some (.ok (none, toInt r.1, m))
    | none => some (.ok (none, intval, m))
  | .str =>
    match strval with
    | some t =>
      match m.alloc fail 0 with
      | none => some (.error .nomem)
      | some (i, m) => some (.ok (some ⟨some i, dup t⟩, intval, m))
    | none => some (.ok (none, intval, m))
  | .data =>
    if intval < 0 then some (.error .inval)
    else if 2147483647 ≤ intval ∨ (strval.getD []).length < intval.toNat then none
    else
      match m.alloc fail 0 with
      | none => some (.error .nomem)
      | some (i, m) => some (.ok (some ⟨some i, (strval.getD []).take intval.toNat ++ [0]⟩, intval, m))

/-- The assignment of the value, :2971-2977 and :2979-2985. -/
def storeVal (m : Mem) (ty : Ty) (v : Val) (ns : Option Str) (iv : Int) : Option (Val × Mem) :=
  if ty = .str ∨ ty = .data then (m.freeStr v.str).map fun m => (⟨ns, iv⟩, m)
  else some ({ v with int := iv }, m)

/-- `l_gensio_set_default`, :2855-2994. -/
def S.lset (s : S) (cls : Option String) (name : String) (strval : Option (List UInt8)) (intval : Int)
    (fail : Option Nat) : Option (S × Err) :=
  match s.lookup name with
  | none => some (s, .notfound)
  | some (isdef, e) =>
    match conv s.mem e strval intval fail with
    | none => none
    | some (.error r) => some (s, r)
    | some (.ok (ns, iv, m)) =>
      let k := if ns.isSome then 1 else 0
      match cls with
      | none =>
        (storeVal m e.ty e.val ns iv).map fun (v, m) =>
          (({ s with mem := m }).put isdef name { e with val := v, set := true }, .ok)
      | some c =>
        match e.classes.find? (·.name = c) with
        | some x =>
          (storeVal m e.ty x.val ns iv).map fun (v, m) =>
            (({ s with mem := m }).put isdef name { e with classes := putCls c v e.classes }, .ok)
        | none =>
          match m.alloc fail k with
          | none => (m.freeStr ns).map fun m => ({ s with mem := m }, .nomem)
          | some (i, m) =>
            match m.alloc fail (k + 1) with
            | none => (m.free i).bind fun m => (m.freeStr ns).map fun m => ({ s with mem := m }, .nomem)
            | some (j, m) =>
              (storeVal m e.ty {} ns iv).map fun (v, m) =>
                (({ s with mem := m }).put isdef name { e with classes := ⟨i, j, c, v⟩ :: e.classes }, .ok)

/-- `if (class) c = gensio_lookup_default_class(d, class, NULL)`, :3039-3040. -/
def classOf (e : Ent) : Option String → Option Cls
  | some c => e.classes.find? (·.name = c)
  | none => none

/-- What a call answers: an error (or `ok`), a number, a string, data. -/
inductive Ans
  | err (e : Err)
  | int (z : Int)
  | str (t : Option (List UInt8))
  | data (t : Option (List UInt8))
deriving DecidableEq, Repr

/-- A copy given to the user. -/
def S.give (s : S) (fail : Option Nat) (a : Ans) : S × Ans :=
  match s.mem.alloc fail 0 with
  | none => (s, .err .nomem)
  | some (i, m) => ({ s with mem := m, user := i :: s.user }, a)

/-- The switch at the end of `gensio_get_default`, :3054-3088.  The copy of data is `intval` bytes long (:3073) and `intval + 1`
bytes are copied to it (:3078). -/
def S.giveVal (s : S) (ty : Ty) (v : Val) (fail : Option Nat) : Option (S × Ans) :=
  match ty with
  | .str =>
    match v.str with
    | none => some (s, .str none)
    | some p =>
      if !s.mem.readable p then none
      else some (s.give fail (.str (some (p.data.takeWhile (· ≠ 0)))))
  | .data =>
    match v.str with
    | none => some (s, .data none)
    | some p =>
      let size := v.int
      if !s.mem.readable p then none
      else if fail = some 0 then some (s, .err .nomem)
      else if size < v.int + 1 ∨ (p.data.length : Int) < v.int + 1 then none
      else some (s.give fail (.data (some (p.data.take v.int.toNat))))
  | _ => some (s, .int v.int)

/-- `gensio_get_default`, :3008-3095 (after `call_once`). -/
def S.get (s : S) (cls : Option String) (name : String) (classonly : Bool) (ty : Ty) (fail : Option Nat) :
    Option (S × Ans) :=
  match s.lookup name with
  | none => some (s, .err .notfound)
  | some (_, e) =>
    if e.ty ≠ ty ∧ ¬ (e.ty = .enum ∧ ty = .int) ∧ ¬ (e.ty = .bool ∧ ty = .int) then some (s, .err .inval)
    else
      match classOf e cls with
      | some c => s.giveVal ty c.val fail
      | none =>
        if classonly then some (s, .err .notfound)
        else if e.set then s.giveVal ty e.val fail
        else s.giveVal ty e.dflt fail

/-- The loop that frees the classes in `gensio_del_default`, :3150-3157. -/
def delClasses (m : Mem) : List Cls → Option Mem
  | [] => some m
  | c :: l =>
    (m.freeStr c.val.str).bind fun m => (m.free c.nblk).bind fun m => (m.free c.blk).bind fun m => delClasses m l

/-- `gensio_del_default`, :3097-3168 (after `call_once`). -/
def S.del (s : S) (cls : Option String) (name : String) (delclasses : Bool) : Option (S × Err) :=
  match s.lookup name with
  | none => some (s, .notfound)
  | some (isdef, e) =>
    match cls with
    | some c =>
      match e.classes.find? (·.name = c) with
      | none => some (s, .notfound)
      | some x =>
        (s.mem.freeStr x.val.str).bind fun m => (m.free x.nblk).bind fun m => (m.free x.blk).map fun m =>
          (({ s with mem := m }).put isdef name { e with classes := e.classes.eraseP (·.name = c) }, .ok)
    | none =>
      if isdef then some (s, .notsup)
      else if e.classes ≠ [] ∧ delclasses = false then some (s, .inuse)
      else
        (delClasses s.mem e.classes).bind fun m => (m.freeStr e.val.str).bind fun m =>
          match e.own with
          | none => none
          | some (d, n) => (m.free n).bind fun m => (m.free d).map fun m =>
              ({ s with mem := m, added := s.added.eraseP (·.name = name) }, .ok)

/-- `gensio_default_init`, :2602-2616; the lock is allocation 0 (it is not counted as memory of the store). -/
def S.init (s : S) (fail : Option Nat) : Option S :=
  if fail = some 0 then some { s with up := true, lock := false, rv := .nomem }
  else
    (({ s with up := true, lock := true }).lset (some "udp") "reuseaddr" none 0 (fail.map (· - 1))).map fun (x : S × Err) =>
      { x.1 with rv := x.2 }

/-- The calls.  `ifail` is the failure of `gensio_default_init` if this call is the one that runs it. -/
inductive Op
  | add (name : String) (ty : Ty) (strval : Option (List UInt8)) (intval min max : Int) (enums : List (List UInt8 × Int))
  | set (cls : Option String) (name : String) (strval : Option (List UInt8)) (intval : Int)
  | get (cls : Option String) (name : String) (classonly : Bool) (ty : Ty)
  | del (cls : Option String) (name : String) (delclasses : Bool)
  | reset
  | cleanup
  | release (i : Nat)
deriving DecidableEq, Repr

/-- A call and which of its allocations fail. -/
structure Call where
  op : Op
  fail : Option Nat := none
  ifail : Option Nat := none
deriving DecidableEq, Repr

/-- The call after `call_once`. -/
def S.call (s : S) (fail : Option Nat) : Op → Option (S × Ans)
  | .add name ty strval intval min max enums => (s.add name ty strval intval min max enums fail).map fun (s, r) => (s, .err r)
  | .set cls name strval intval => (s.lset cls name strval intval fail).map fun (s, r) => (s, .err r)
  | .get cls name classonly ty => s.get cls name classonly ty fail
  | .del cls name delclasses => (s.del cls name delclasses).map fun (s, r) => (s, .err r)
  | .reset => s.reset.map fun s => (s, .err .ok)
  | _ => some (s, .err .ok)

/-- `call_once` and the check of `gensio_def_init_rv` that all calls begin with, for example :2999-3001. -/
def S.once (s : S) (ifail : Option Nat) : Option S := if s.up then some s else s.init ifail

/-- One call.  `cleanup` is what `gensio_cleanup_mem` (:2629-2692) does with the defaults (:2640-2647, :2673); `release` is
`o->free` by the user of a block that was given to it. -/
def step (s : S) (c : Call) : Option (S × Ans) :=
  match c.op with
  | .cleanup => s.reset.map fun s => ({ s with lock := false, up := false }, .err .ok)
  | .release i =>
    if i ∈ s.user then (s.mem.free i).map fun m => ({ s with mem := m, user := s.user.erase i }, .err .ok)
    else some (s, .err .ok)
  | op =>
    (s.once c.ifail).bind fun s => if s.rv ≠ .ok then some (s, .err s.rv) else s.call c.fail op

/-- A sequence of calls and the answers. -/
def run (s : S) : List Call → Option (S × List Ans)
  | [] => some (s, [])
  | c :: l => (step s c).bind fun (s, a) => (run s l).map fun (s, as) => (s, a :: as)

/-! ## Functions that use the store -/

/-- `gensio_get_defaultaddr`, :3170-3207.  `scan` is the result of `gensio_scan_network_port` for the text (address, whether the
protocol is the one asked for, whether there is a port) or its error.  The result is the number returned (0, 1 or an
error) and what `*rai` becomes. -/
def getAddr {A : Type} (scan : List UInt8 → Except Int (A × Bool × Bool)) (a : Ans) (requirePort : Bool) (rai : Option A) :
    Int × Option A :=
  match a with
  | .str none => (2, rai)
  | .str (some t) =>
    match scan t with
    | .error e => (e, rai)
    | .ok (ai, sameProto, isPort) => if (requirePort ∧ !isPort) ∨ !sameProto then (7, rai) else (1, some ai)
  | _ => (3, rai)

/-- What the users of `gensio_get_defaultaddr` do with the result: `gensio_net.c` :466-472, `gensio_dgram.c` :2115-2121,
`gensio_sctp.c` :442-448.  The result is the error their allocation function ends with, or `none` if it goes on. -/
def useAddr (err : Int) : Option Int := if err ≠ 0 ∧ err ≠ 2 then some err else none

/-- `gensio_get_default_uint`, :3209-3225. -/
def getUint (a : Ans) : Except Err Nat :=
  match a with
  | .int z => if z < 0 then .error .inval else .ok z.toNat
  | .err e => .error e
  | _ => .error .inval

/-- The table of built-in defaults, :2491-2592, without the `#ifdef` parts for OpenIPMI and tcp wrappers (:2495-2499,
:2532-2545).  `INT_MAX` is 2147483647. -/
def builtins : List Ent := [
  { name := "nodelay", ty := .bool },
  { name := "laddr", ty := .str },
  { name := "mttl", ty := .int, min := 1, max := 255, dflt := { int := 1 } },
  { name := "instreams", ty := .int, min := 1, max := 2147483647, dflt := { int := 1 } },
  { name := "ostreams", ty := .int, min := 1, max := 2147483647, dflt := { int := 1 } },
  { name := "sack_freq", ty := .int, min := 0, max := 2147483647, dflt := { int := 1 } },
  { name := "sack_delay", ty := .int, min := 0, max := 2147483647, dflt := { int := 10 } },
  { name := "reuseaddr", ty := .bool, dflt := { int := 1 } },
  { name := "drain_timeout", ty := .int, min := -1, max := 2147483647, dflt := { int := -1 } },
  { name := "xonxoff", ty := .bool },
  { name := "rtscts", ty := .bool },
  { name := "local", ty := .bool },
  { name := "hangup-when-done", ty := .int, dflt := { int := -1 } },
  { name := "custspeed", ty := .bool },
  { name := "rs485", ty := .str },
  { name := "uucplock", ty := .bool, dflt := { int := 1 } },
  { name := "flock", ty := .bool, dflt := { int := 1 } },
  { name := "drain_time", ty := .int, min := -1, max := 2147483647, dflt := { int := -1 } },
  { name := "char_drain_wait", ty := .int, min := -1, max := 2147483647, dflt := { int := 50 } },
  { name := "speed", ty := .str, dflt := { str := some ⟨none, [57, 54, 48, 48, 78, 56, 49, 0]⟩ } },
  { name := "nobreak", ty := .bool },
  { name := "mode", ty := .str },
  { name := "rfc2217", ty := .bool },
  { name := "winsize", ty := .bool },
  { name := "CA", ty := .str },
  { name := "cert", ty := .str },
  { name := "key", ty := .str },
  { name := "clientauth", ty := .bool },
  { name := "allow-authfail", ty := .bool },
  { name := "username", ty := .str },
  { name := "password", ty := .str },
  { name := "service", ty := .str },
  { name := "use-child-auth", ty := .bool },
  { name := "enable-password", ty := .bool },
  { name := "require-password", ty := .bool },
  { name := "max-channels", ty := .int, min := 1, max := 2147483647, dflt := { int := 1000 } },
  { name := "delsock", ty := .bool },
  { name := "con-timeout", ty := .int, dflt := { int := 60 } },
  { name := "name", ty := .str },
  { name := "type", ty := .str },
  { name := "domain", ty := .str },
  { name := "host", ty := .str },
  { name := "interface", ty := .int, min := -1, max := 2147483647, dflt := { int := -1 } },
  { name := "nettype", ty := .str, dflt := { str := some ⟨none, [117, 110, 115, 112, 101, 99, 0]⟩ } },
  { name := "nostack", ty := .bool },
  { name := "mdnstimeout", ty := .int, dflt := { int := 1000 } },
  { name := "ignore-v6-link-local", ty := .bool },
  { name := "min-delay", ty := .str, dflt := { str := some ⟨none, [49, 109, 0]⟩ } },
  { name := "max-delay", ty := .str, dflt := { str := some ⟨none, [50, 48, 109, 0]⟩ } }]

/-- The store when the program starts. -/
def start : S := { builtin := builtins }

end Gensio.Defaults
