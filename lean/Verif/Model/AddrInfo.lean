/-!
# Model of lib/net_addrinfo.c

Socket addresses, their comparison with and without subnet masks, the lists of addresses with their
iterator, and the sharing of the lists between addresses by `dup` and `cat`.

A `struct addrinfo` list ("chain") is kept in a heap of chains.  An item of an address points to the first
cell of a chain.  When the first cell of a chain is deleted in place, the item that did it is moved to
the next cell, and another item that pointed to the deleted cell keeps a pointer to freed memory: the chain
counts the deletions of its first cell (`gone`) and the item records the count its pointer belongs to, so
that a pointer is good only while the two agree.  Deleting a later cell relinks the one before it and is
seen by all items that share the chain.  `none` is a use of freed memory, of NULL, or a failed assertion.

Not modelled: `addr_to_str`, `getaddrinfo` itself (its results are arguments), the socket type, protocol,
flags and canonical name of a cell, failures of `gensio_refcount_init`, the reading of the parts of an
address string other than the subnet mask.
-/
namespace Gensio.AddrInfo

/-- A socket address: `struct sockaddr_in` (address in host order, port), `struct sockaddr_in6` (address as
one number with its first byte on top, port, scope), `struct sockaddr_un` (the path up to its first zero
byte), or one of another family. -/
inductive SA where
  | v4 (ip : BitVec 32) (port : BitVec 16)
  | v6 (ip : BitVec 128) (port : BitVec 16) (scope : Nat)
  | unix (path : List UInt8)
  | other (family : Nat)
deriving DecidableEq, Repr

/-- A socket address with the length it is given with (`ai_addr`, `ai_addrlen`). -/
structure Sock where
  sa : SA
  len : Nat
deriving DecidableEq, Repr

/-- `apply_32bit_mask`, net_addrinfo.c:400-413, after its `ntohl`. -/
def mask32 (m : Nat) (v : BitVec 32) : BitVec 32 :=
  if m ≠ 0 ∧ m < 32 then v &&& ((~~~(0 : BitVec 32)) <<< (32 - m)) else v

/-- `IN6_IS_ADDR_V4MAPPED`: the first 96 bits are ten zero bytes and two bytes 0xff. -/
def v4mapped (a : BitVec 128) : Bool := a >>> 32 == 0xffff#128

/-- The last four bytes of an IPv6 address, `((const uint32_t *) &s1->sin6_addr)[3]` in host order. -/
def low32 (a : BitVec 128) : BitVec 32 := a.extractLsb' 0 32

/-- Byte `i` of an IPv6 address, `s6_addr[i]`. -/
def byte (a : BitVec 128) (i : Nat) : BitVec 8 := a.extractLsb' (120 - 8 * i) 8

/-- The loop and the end of `compare_128bit_mask`, net_addrinfo.c:451-462; `m` is what is left of the mask.
`~0 << n` is a shift of a negative number, taken to do what it does on all compilers. -/
def cmp128From (a b : BitVec 128) (m i : Nat) : Bool :=
  if 8 ≤ m then
    if byte a i ≠ byte b i then false else cmp128From a b (m - 8) (i + 1)
  else if 0 < m then
    let mask : BitVec 8 := (~~~(0 : BitVec 8)) <<< (8 - m)
    byte a i &&& mask == byte b i &&& mask
  else true
termination_by m

/-- `compare_128bit_mask`, net_addrinfo.c:443-463. -/
def cmp128 (m : Nat) (a b : BitVec 128) : Bool :=
  cmp128From a b (if m = 0 ∨ 128 < m then 128 else m) 0

/-- `sockaddr_inet6_inet4_equal`, net_addrinfo.c:416-441; the first is an IPv6 address. -/
def eq64 (ip : BitVec 128) (port : BitVec 16) (a2 : SA) (ports : Bool) (m : Nat) : Bool :=
  match a2 with
  | .v4 ip2 port2 =>
    if !v4mapped ip then false
    else if ports ∧ port ≠ port2 then false
    else mask32 m (low32 ip) == mask32 m ip2
  | _ => false

/-- `sockaddr_equal`, net_addrinfo.c:466-542.  `strncmp` over the whole of `sun_path` compares the paths up to
their first zero byte. -/
def equal (a1 a2 : Sock) (ports : Bool) (m : Nat) : Bool :=
  match a1.sa, a2.sa with
  | .v4 i1 p1, .v4 i2 p2 =>
    if a1.len ≠ a2.len then false
    else if ports ∧ p1 ≠ p2 then false
    else mask32 m i1 == mask32 m i2
  | .v6 i1 p1 _, .v6 i2 p2 _ =>
    if a1.len ≠ a2.len then false
    else if ports ∧ p1 ≠ p2 then false
    else cmp128 m i1 i2
  | .unix q1, .unix q2 =>
    if a1.len ≠ a2.len then false else q1 == q2
  | .v6 i1 p1 _, _ => eq64 i1 p1 a2.sa ports m
  | _, .v6 i2 p2 _ => eq64 i2 p2 a1.sa ports (if m ≠ 0 then (if 96 < m then m - 96 else 0) else m)
  | _, _ => false

/-! ## Making addresses and reading them -/

/-- Size of `sun_path`, and of what comes before it in `struct sockaddr_un`. -/
def pathMax : Nat := 108
def unHeader : Nat := 2

/-- What `gensio_addr_addrinfo_create` is given: bytes of an address. -/
inductive NetType where
  | ipv4 | ipv6 | unix | other
deriving DecidableEq, Repr

inductive Err where
  | inval | toobig | nomem | notfound
deriving DecidableEq, Repr

/-- Bytes as one number, the first byte on top. -/
def ofBytes (n : Nat) (l : List UInt8) : BitVec n :=
  l.foldl (fun acc b => (acc <<< 8) ||| BitVec.ofNat n b.toNat) 0

/-- `gensio_addr_addrinfo_create`, net_addrinfo.c:224-291, up to the allocations.  `scope` is the scope of a
full `struct sockaddr_in6` (`none`: the 16 bytes only were given, and the length is that of the data).
`htons` takes the low 16 bits of the port. -/
def create (t : NetType) (data : List UInt8) (scope : Option Nat) (port : Nat) : Except Err Sock :=
  match t with
  | .ipv4 =>
    if data.length ≠ 4 then .error .inval
    else .ok ⟨.v4 (ofBytes 32 data) (BitVec.ofNat 16 port), 16⟩
  | .ipv6 =>
    if data.length ≠ 16 then .error .inval
    else .ok ⟨.v6 (ofBytes 128 data) (BitVec.ofNat 16 port) (scope.getD 0), 28⟩
  | .unix =>
    if data.length > pathMax - 1 then .error .toobig
    else .ok ⟨.unix (data.takeWhile (· ≠ 0)), unHeader + pathMax⟩
  | .other => .error .inval

/-- `gensio_scan_unixaddr`, net_addrinfo.c:676-706, up to the allocations. -/
def scanUnix (str : List UInt8) : Except Err Sock :=
  if str.length ≥ pathMax - 1 then .error .toobig
  else .ok ⟨.unix str, unHeader + str.length + 1⟩

/-- The `n` bytes of a number, first byte on top. -/
def toBytes (n : Nat) (v : Nat) : List UInt8 :=
  (List.range n).map fun i => UInt8.ofNat (v >>> (8 * (n - 1 - i)))

/-- The data `gensio_addr_addrinfo_get_data` gives out, net_addrinfo.c:350-391. -/
def dataOf : SA → List UInt8
  | .v4 ip _ => toBytes 4 ip.toNat
  | .v6 ip _ _ => toBytes 16 ip.toNat
  | .unix p => p ++ [0]
  | .other _ => []

/-- `gensio_addr_addrinfo_get_data`, net_addrinfo.c:350-397: what is copied to a buffer of `ilen` bytes, and
the length reported. -/
def getData (cur : Option Sock) (ilen : Nat) : List UInt8 × Nat :=
  match cur with
  | none => ([], 0)
  | some s => ((dataOf s.sa).take (min (dataOf s.sa).length ilen), (dataOf s.sa).length)

/-- `gensio_addr_get_data`, net_addr.c:104-111, for an address whose type has the function `get` to do it or has
none (`net_ax25_addr.c` gives none, :158-171).  The other function, `addr_getaddr`, is called when there is none, and
then `get` all the same; `none` is a call through NULL. -/
def netGetData (get : Option (Nat → List UInt8 × Nat)) (ilen : Nat) : Option (List UInt8 × Nat) :=
  get.map fun f => f ilen

/-- `gensio_sockaddr_get_port`, net_addrinfo.c:293-312, and `gensio_addr_addrinfo_get_port`, :335-348; `none`
is the result -1. -/
def getPort (cur : Option Sock) : Option Nat :=
  match cur with
  | some ⟨.v4 _ p, _⟩ => some p.toNat
  | some ⟨.v6 _ p _, _⟩ => some p.toNat
  | _ => none

/-- `gensio_sockaddr_set_port`, net_addrinfo.c:314-333. -/
def setPort (s : Sock) (port : Nat) : Except Err Sock :=
  match s.sa with
  | .v4 ip _ => .ok { s with sa := .v4 ip (BitVec.ofNat 16 port) }
  | .v6 ip _ sc => .ok { s with sa := .v6 ip (BitVec.ofNat 16 port) sc }
  | _ => .error .inval

/-! ## Subnet masks in the text of an address -/

/-- The family looked up first: "ipv4", or else IPv6 (also when none was named). -/
inductive Fam where
  | inet | inet6
deriving DecidableEq, Repr

/-- The subnet mask of one address of `gensio_addr_addrinfo_scan_ips`, net_addrinfo.c:1128-1171 and :1284.  The
number after the slash is `n` (`none`: there is no slash); `strtoul` gives at most `ULONG_MAX`, the variable
has 32 bits, the field 8.  `numeric4`: the address is an IPv4 number. -/
def scanMask (f : Fam) (numeric4 : Bool) (n : Option Nat) : Except Err Nat :=
  match n with
  | none => .ok 0
  | some n =>
    let m := min n 18446744073709551615 % 4294967296
    match f with
    | .inet => if numeric4 ∧ m > 32 then .error .inval else .ok (m % 256)
    | .inet6 => if m > 128 then .error .inval else .ok (m % 256)

/-! ## Chains, items and addresses -/

/-- A list of `struct addrinfo`, with what the items that point to it share: whether `getaddrinfo` allocated
it, and the reference count (`none`: not allocated). -/
structure Chain where
  cells : List Sock
  gai : Bool := false
  rc : Option Nat := none
  gone : Nat := 0
  live : Bool := true
deriving DecidableEq, Repr

/-- `struct gensio_addr_addrinfo_list`, net_addrinfo.c:50-57. -/
structure Item where
  chain : Nat
  gone : Nat := 0
  mask : Nat := 0
  only : Bool := false
deriving DecidableEq, Repr

/-- The chain an item points to, if its pointer is good. -/
def chainOf (cs : List Chain) (it : Item) : Option Chain :=
  match cs[it.chain]? with
  | some c => if c.live ∧ it.gone = c.gone then some c else none
  | none => none

/-- The chains of the items of an address. -/
def nested (cs : List Chain) : List Item → Option (List (List Sock))
  | [] => some []
  | it :: rest =>
    match chainOf cs it with
    | none => none
    | some c => (nested cs rest).map (c.cells :: ·)

/-- What the iterator gives, one after the other: `gensio_addrinfo_setup_iter`, net_addrinfo.c:78-85, and
`gensio_addrinfo_iter_next`, :100-118.  It ends at an item without cells. -/
def visit {α : Type} : List (List α) → List α
  | [] => []
  | [] :: _ => []
  | l :: ls => l ++ visit ls

/-- The item and the cell the iterator is at after `j` steps. -/
def locate {α : Type} : List (List α) → Nat → Nat × Nat
  | [], j => (0, j)
  | l :: ls, j =>
    if j < l.length then (0, j) else
    let p := locate ls (j - l.length)
    (p.1 + 1, p.2)

/-! ### The iterator -/

/-- `struct gensio_addrinfo_iter`, net_addrinfo.c:59-63: what is left of the list at the current cell, and the
items after it. -/
structure Iter where
  cur : List Sock
  rest : List (List Sock)
deriving DecidableEq, Repr

/-- `gensio_addrinfo_setup_iter`, net_addrinfo.c:78-85. -/
def Iter.setup : List (List Sock) → Iter
  | [] => ⟨[], []⟩
  | l :: ls => ⟨l, ls⟩

/-- `gensio_addrinfo_iter_next`, net_addrinfo.c:100-118. -/
def Iter.next (i : Iter) : Option Sock × Iter :=
  match i.cur with
  | [] => (none, i)
  | x :: x' :: xs => (some x, ⟨x' :: xs, i.rest⟩)
  | [x] =>
    match i.rest with
    | l :: ls => (some x, ⟨l, ls⟩)
    | [] => (some x, ⟨[], []⟩)

/-- `gensio_addr_addrinfo_get_curr`, net_addrinfo.c:134-140. -/
def Iter.curr (i : Iter) : Option Sock := i.cur.head?

/-- `gensio_addr_addrinfo_next`, net_addrinfo.c:1423-1437. -/
def addrNext (i : Iter) : Bool × Iter :=
  match i.cur with
  | [] => (false, i)
  | [_] => if i.rest = [] then (false, i) else (true, i.next.2)
  | _ => (true, i.next.2)

/-- The loop of `gensio_addr_addrinfo_equal`, net_addrinfo.c:562-577. -/
def equalAll (fuel : Nat) (i1 i2 : Iter) (ports : Bool) : Bool :=
  match fuel with
  | 0 => true
  | fuel + 1 =>
    match i1.next, i2.next with
    | (some a, i1), (some b, i2) => if equal a b ports 0 then equalAll fuel i1 i2 ports else false
    | (none, _), (none, _) => true
    | _, _ => false

/-- `gensio_addr_addrinfo_equal`, net_addrinfo.c:544-578.  The first two are the lists, the next two the own
iterators of the addresses.  The loop ends with the shorter list. -/
def addrEqual (n1 n2 : List (List Sock)) (c1 c2 : Iter) (ports all : Bool) : Option Bool :=
  if !all then
    match c1.curr, c2.curr with
    | some a, some b => some (equal a b ports 0)
    | _, _ => none
  else some (equalAll ((visit n1).length + 1) (Iter.setup n1) (Iter.setup n2) ports)

/-- `gensio_addr_addrinfo_addr_present`, net_addrinfo.c:1394-1411; each list with its mask. -/
def present (gai : List (Nat × List Sock)) (a : Sock) (ports : Bool) : Bool :=
  gai.any fun p => p.2.any fun e => equal a e ports p.1

/-! ### Duplicates -/

/-- The first pair of equal addresses that the two loops of `gensio_addr_dedup` find, net_addrinfo.c:914-920. -/
def firstDup : List Sock → Option (Nat × Nat)
  | [] => none
  | x :: xs =>
    match xs.findIdx? fun y => equal x y true 0 with
    | some j => some (0, j + 1)
    | none => (firstDup xs).map fun p => (p.1 + 1, p.2 + 1)

/-- `gensio_addrinfo_list_one_cleanup`, net_addrinfo.c:806-826. -/
def cleanup (cs : List Chain) (it : Item) : Option (List Chain) :=
  match cs[it.chain]? with
  | none => none
  | some c =>
    if !c.live then none else
    match c.rc with
    | some 0 => none
    | some (n + 2) => some (cs.set it.chain { c with rc := some (n + 1) })
    | _ => if it.gone ≠ c.gone then none else some (cs.set it.chain { c with live := false })

/-- `gensio_addrinfo_list_free`, net_addrinfo.c:828-847. -/
def freeItems (cs : List Chain) : List Item → Option (List Chain)
  | [] => some cs
  | it :: rest => (cleanup cs it).bind fun cs => freeItems cs rest

/-- Taking the next of the results of allocations; when no more are given they succeed. -/
def take (al : List Bool) : Bool × List Bool := (al.headD true, al.tail)

/-- Deleting a cell, net_addrinfo.c:942-958: of a chain, and the items after it (the item is deleted when the
chain is then empty; of the chain then at most the reference count is left, which nobody frees). -/
def delCell (cs : List Chain) (its : List Item) (k c : Nat) : Option (List Chain × List Item) :=
  match its[k]? with
  | none => none
  | some it =>
    match chainOf cs it with
    | none => none
    | some ch =>
      if c = 0 then
        let ch := { ch with cells := ch.cells.tail, gone := ch.gone + 1 }
        if ch.cells = [] then some (cs.set it.chain { ch with live := ch.rc.isSome }, its.eraseIdx k)
        else some (cs.set it.chain ch, its.set k { it with gone := it.gone + 1 })
      else some (cs.set it.chain { ch with cells := ch.cells.eraseIdx c }, its)

/-- `gensio_addr_dedup`, net_addrinfo.c:892-966.  Each `goto restart` is one recursion; `fuel` bounds them.
The result says whether it succeeded. -/
def dedup (fuel : Nat) (al : List Bool) (cs : List Chain) (its : List Item) :
    Option (List Chain × List Item × Bool) :=
  match fuel with
  | 0 => some (cs, its, true)
  | fuel + 1 =>
    match nested cs its with
    | none => none
    | some ll =>
      match firstDup (visit ll) with
      | none => some (cs, its, true)
      | some (_, j) =>
        let p := locate ll j
        match its[p.1]? with
        | none => none
        | some it =>
          match chainOf cs it with
          | none => none
          | some ch =>
            if ch.gai then
              if !(take al).1 then some (cs, its, false) else
              match cleanup cs it with
              | none => none
              | some cs' =>
                dedup fuel (take al).2 (cs' ++ [{ cells := ch.cells }])
                  (its.set p.1 { it with chain := cs'.length, gone := 0 })
            else
              match delCell cs its p.1 p.2 with
              | none => none
              | some (cs, its) => dedup fuel al cs its

/-- How many restarts can be needed: one for each cell, and one for each item. -/
def dedupFuel (cs : List Chain) (its : List Item) : Nat :=
  ((nested cs its).getD []).flatten.length + its.length + 1

/-! ### Sharing -/

/-- Results of the allocations of one operation: of the address, of the first item of the second half of a
concatenation, of further items, of reference counts, of copies of lists, of copies in `dedup`. -/
structure Mem where
  addr : Bool := true
  start : Bool := true
  link : List Bool := []
  rc : List Bool := []
  copy : List Bool := []
  ded : List Bool := []
deriving DecidableEq, Repr

/-- `gensio_addrinfo_list_dup`, net_addrinfo.c:850-890: `acc` are the items of the copy made so far, the next
arguments the items still to be copied.  The result holds the items of the copy, or `none` for an error. -/
def listDup (m : Mem) (cs : List Chain) (acc : List Item) : List Item →
    Option (Mem × List Chain × Option (List Item))
  | [] => some (m, cs, some acc)
  | l1 :: rest =>
    -- The allocation of an item after the first is not checked.
    if acc ≠ [] ∧ !(take m.link).1 then none else
    let m := if acc = [] then m else { m with link := (take m.link).2 }
    if l1.only then
      match chainOf cs l1 with
      | none => none
      | some c =>
        if (take m.copy).1 then
          listDup { m with copy := (take m.copy).2 } (cs ++ [{ cells := c.cells, gai := c.gai }])
            (acc ++ [{ l1 with chain := cs.length, gone := 0 }]) rest
        else
          -- The item was already copied, so its list and all that follow it are freed.
          match freeItems cs (acc ++ l1 :: rest) with
          | none => none
          | some cs => some ({ m with copy := (take m.copy).2 }, cs, none)
    else
      match cs[l1.chain]? with
      | none => none
      | some c =>
        if !c.live then none else
        match c.rc with
        | some 0 => none
        | some (n + 1) => listDup m (cs.set l1.chain { c with rc := some (n + 2) }) (acc ++ [l1]) rest
        | none =>
          if (take m.rc).1 then
            listDup { m with rc := (take m.rc).2 } (cs.set l1.chain { c with rc := some 2 }) (acc ++ [l1]) rest
          else
            match freeItems cs acc with
            | none => none
            | some cs => some ({ m with rc := (take m.rc).2 }, cs, none)

/-- The chains and the addresses the user holds, by number; a freed one, or one that could not be made, is
`none`. -/
structure W where
  chains : List Chain := []
  addrs : List (Option (List Item)) := []
deriving DecidableEq, Repr

/-- What a user does.  `scan` is `gensio_addr_addrinfo_scan_ips` with the masks and the results of
`getaddrinfo`; `make` covers `gensio_addrinfo_make`, `_create` and `gensio_addr_addrinfo_set` (`only`: made
for received packets). -/
inductive Op where
  | scan (l : List (Nat × List Sock)) (al : List Bool)
  | make (cells : List Sock) (only : Bool)
  | dup (a : Nat) (m : Mem)
  | cat (a b : Nat) (m : Mem)
  | free (a : Nat)
deriving DecidableEq, Repr

/-- The items of an address in use; using another is an error of the user. -/
def W.addr (w : W) (a : Nat) : Option (List Item) := (w.addrs[a]?).join

/-- The end of `gensio_addr_addrinfo_scan_ips`, net_addrinfo.c:1266-1320: the chains `getaddrinfo` gave are put
in a list, and duplicates removed. -/
def scan (w : W) (l : List (Nat × List Sock)) (al : List Bool) : Option W :=
  let cs := w.chains ++ l.map fun p => { cells := p.2, gai := true }
  let its := l.zipIdx.map fun q => { chain := w.chains.length + q.2, mask := q.1.1 }
  if its = [] then some { w with addrs := w.addrs ++ [none] } else
  match dedup (dedupFuel cs its) al cs its with
  | none => none
  | some (cs, its, true) => some ⟨cs, w.addrs ++ [some its]⟩
  | some (cs, its, false) => (freeItems cs its).map fun cs => ⟨cs, w.addrs ++ [none]⟩

/-- `gensio_addrinfo_make`, net_addrinfo.c:153-209; a failure changes nothing. -/
def make (w : W) (cells : List Sock) (only : Bool) : W :=
  ⟨w.chains ++ [{ cells }], w.addrs ++ [some [{ chain := w.chains.length, only }]]⟩

/-- `gensio_addr_addrinfo_dup`, net_addrinfo.c:1325-1349. -/
def dup (w : W) (its : List Item) (m : Mem) : Option W :=
  if !m.addr then some { w with addrs := w.addrs ++ [none] } else
  match listDup m w.chains [] its with
  | none => none
  | some (_, cs, r) => some ⟨cs, w.addrs ++ [r]⟩

/-- `gensio_addr_addrinfo_cat`, net_addrinfo.c:1351-1392. -/
def cat (w : W) (its1 its2 : List Item) (m : Mem) : Option W :=
  if !m.addr then some { w with addrs := w.addrs ++ [none] } else
  match listDup m w.chains [] its1 with
  | none => none
  | some (_, cs, none) => some ⟨cs, w.addrs ++ [none]⟩
  | some (m, cs, some n1) =>
    if !m.start then (freeItems cs n1).map fun cs => ⟨cs, w.addrs ++ [none]⟩ else
    match listDup m cs [] its2 with
    | none => none
    | some (_, cs, none) => (freeItems cs n1).map fun cs => ⟨cs, w.addrs ++ [none]⟩
    | some (m, cs, some n2) =>
      match dedup (dedupFuel cs (n1 ++ n2)) m.ded cs (n1 ++ n2) with
      | none => none
      | some (cs, its, true) => some ⟨cs, w.addrs ++ [some its]⟩
      | some (cs, its, false) => (freeItems cs its).map fun cs => ⟨cs, w.addrs ++ [none]⟩

/-- One operation.  `gensio_addr_addrinfo_free`, net_addrinfo.c:1413-1421. -/
def step (w : W) : Op → Option W
  | .scan l al => scan w l al
  | .make cells only => some (make w cells only)
  | .dup a m => (w.addr a).bind fun its => dup w its m
  | .cat a b m => (w.addr a).bind fun its1 => (w.addr b).bind fun its2 => cat w its1 its2 m
  | .free a =>
    (w.addr a).bind fun its => (freeItems w.chains its).map fun cs => ⟨cs, w.addrs.set a none⟩

def run (w : W) : List Op → Option W
  | [] => some w
  | o :: os => (step w o).bind fun w => run w os

/-- The addresses an address holds, as the iterator gives them. -/
def W.list (w : W) (a : Nat) : Option (List Sock) :=
  (w.addr a).bind fun its => (nested w.chains its).map visit

end Gensio.AddrInfo
