/-!
# The TLS filter

`lib/gensio_ssl.c` :65-128 (the structure), :216-264, :266-328, :330-791, :940-1029 (user name), :1096-1158.

OpenSSL, the memory BIO between it and the filter, the lower layer and the user are given by their answers.  Every function
holds the lock of the filter; only the read handler of the user runs without it, so `ssl_ll_write` is cut there: `Op.ll` runs
up to the call of the handler or to its end, `Op.ulDone` from the return of the handler on, and other calls may come between.
A result `none` is a fault: memory outside a buffer, a failed assertion, or a call of `SSL_write` that is not the repetition
OpenSSL asks for.
-/
namespace Gensio.Ssl

/-- The errors the filter makes, and any other one of the lower layer or the user. -/
inductive Err | nomem | proto | remclose | comm | timedout | localClosed | retry | inprogress | user (n : Nat)
deriving DecidableEq, Repr

/-- `SSL_get_error` after a call that did not succeed: `SSL_ERROR_WANT_READ`, `SSL_ERROR_WANT_WRITE`, `SSL_ERROR_SSL`,
`SSL_ERROR_ZERO_RETURN`, anything else. -/
inductive No | wantRead | wantWrite | proto | closed | other
deriving DecidableEq, Repr

/-- What `BIO_read` answers: data, "try again later" (`BIO_should_retry`), failure. -/
inductive Bio | data (d : List UInt8) | later | fail
deriving DecidableEq, Repr

/-- What `BIO_write` answers: the number of bytes taken, "try again later", failure. -/
inductive BioW | took (n : Nat) | later | fail
deriving DecidableEq, Repr

/-- What `SSL_read` answers. -/
inductive Rd | data (d : List UInt8) | no (r : No)
deriving DecidableEq, Repr

/-- The answers of one pass through the loop of `ssl_ul_write`: of the lower layer (error or number of bytes taken), of
`SSL_write` or `SSL_peek` (`none` is success), of `BIO_read`.  Those that are not asked for do not matter. -/
structure Pass where
  ll : Except Err Nat := .ok 0
  ssl : Option No := none
  bio : Bio := .later
deriving Repr

/-- `struct ssl_filter`, :65-128.  `wdata`: `write_data` up to `write_data_len`; `xbuf`: `xmit_buf` up to `xmit_buf_len`;
`rdata`: `read_data_len` bytes of `read_data` from `read_data_pos` (`rpos`) on.  The rest are notes that the code does not have:
`repeated` is what OpenSSL wants to be called with again, `taken` the bytes the user was told are written, `sent` those that
`SSL_write` took, `fromBio` those that `BIO_read` gave, `toLl` those the lower layer took, `got` those that `SSL_read` gave,
`given` those that the user took; `masked`: an error of the lower layer was forgotten; `peeked`: `SSL_peek` succeeded. -/
structure F where
  maxR : Nat
  maxW : Nat
  maxX : Nat
  timeout : Int
  err : Option Err := none
  connected : Bool := false
  shutOk : Bool := false
  started : Bool := false
  contime : Int := 0
  wantR : Bool := false
  wantW : Bool := false
  wdata : List UInt8 := []
  xbuf : List UInt8 := []
  xpos : Nat := 0
  rdata : List UInt8 := []
  rpos : Nat := 0
  inUl : Bool := false
  repeated : Option (List UInt8) := none
  taken : List UInt8 := []
  sent : List UInt8 := []
  fromBio : List UInt8 := []
  toLl : List UInt8 := []
  got : List UInt8 := []
  given : List UInt8 := []
  masked : Bool := false
  peeked : Bool := false
deriving DecidableEq, Repr

/-- `ssl_handle_err`, :477-508: the flags it sets and the error it gives. -/
def F.handle (f : F) : No → F × Option Err
  | .wantRead => ({ f with wantR := true }, none)
  | .wantWrite => ({ f with wantW := true }, none)
  | .proto => (f, some .proto)
  | .closed => (f, some .remclose)
  | .other => (f, some .comm)

/-- The part of `ssl_ul_write` that takes the data of the user, :531-557: the number it reports.  `none` if `memcpy` would leave the
buffer. -/
def F.accept (f : F) (sg : List (List UInt8)) : Option (F × Nat) :=
  if !f.connected then some (f, (sg.map List.length).sum)
  else if f.wdata ≠ [] then some (f, 0)
  else
    let w := sg.foldl (fun w b => w ++ b.take (Nat.min b.length (f.maxW - w.length))) []
    if f.maxW < w.length then none else some ({ f with wdata := w, taken := f.taken ++ w }, w.length)

/-- :560-574: what waits for the lower layer is given to it. -/
def F.flush (f : F) (a : Except Err Nat) : F × Option Err :=
  if f.xbuf = [] then (f, none)
  else match a with
    | .error e => ({ f with xbuf := [], wdata := [] }, some e)
    | .ok n =>
      ({ f with toLl := f.toLl ++ (f.xbuf.drop f.xpos).take n, xpos := f.xpos + n,
                xbuf := if f.xbuf.length ≤ f.xpos + n then [] else f.xbuf }, none)

/-- :576-608: OpenSSL is called.  `e` is the error so far.  If `SSL_peek` succeeds its result 1 is taken for an error, which is
`GE_NOMEM` (:602). -/
def F.call (f : F) (e : Option Err) (a : Option No) : Option (F × Option Err) :=
  if e = none ∧ f.xbuf = [] ∧ f.wdata ≠ [] then
    if f.repeated ≠ none ∧ f.repeated ≠ some f.wdata then none
    else
      let f := { f with wantR := false, wantW := false }
      match a with
      | none => some ({ f with sent := f.sent ++ f.wdata, wdata := [], repeated := none }, none)
      | some r =>
        let (f, e) := f.handle r
        some (if e = none then { f with repeated := some f.wdata } else { f with wdata := [] }, e)
  else if f.wantW then
    let f := { f with wantR := false, wantW := false }
    match a with
    | none => some ({ f with peeked := true }, some .nomem)
    | some r =>
      let (f, e') := f.handle r
      some (if e' = none then { f with masked := f.masked || e.isSome } else { f with wdata := [] }, e')
  else some (f, e)

/-- :610-625: what OpenSSL wants to send is fetched; `true` for `goto restart`. -/
def F.fetch (f : F) (e : Option Err) (a : Bio) : F × Option Err × Bool :=
  if e = none ∧ f.xbuf = [] then
    match a with
    | .later => (f, none, false)
    | .fail => (f, some .comm, false)
    | .data d => ({ f with xbuf := d, xpos := 0, fromBio := f.fromBio ++ d }, none, true)
  else (f, e, false)

/-- One pass from the label `restart` on, :559-625. -/
def F.pass (f : F) (a : Pass) : Option (F × Option Err × Bool) :=
  let (f, e) := f.flush a.ll
  (f.call e a.ssl).map fun (f, e) => f.fetch e a.bio

/-- The loop, with the answers of each pass; there must be as many as there are passes. -/
def F.loop (f : F) : List Pass → Option (F × Option Err)
  | [] => none
  | a :: l => (f.pass a).bind fun (f, e, again) => if again then f.loop l else if l.isEmpty then some (f, e) else none

/-- Whether there are as many answers as passes. -/
def F.complete (f : F) : List Pass → Bool
  | [] => false
  | a :: l =>
    match f.pass a with
    | none => true
    | some (f, _, again) => if again then f.complete l else l.isEmpty

/-- What a call returns: an error, the count for the caller, the timeout (nanoseconds), what the handler of the user is called
with. -/
structure Ret where
  err : Option Err := none
  count : Nat := 0
  wait : Int := 0
  offer : Option (List UInt8) := none
deriving DecidableEq, Repr

/-- `ssl_ul_write`, :510-631. -/
def F.ulWrite (f : F) (sg : List (List UInt8)) (l : List Pass) : Option (F × Ret) :=
  match f.err with
  | some e => some (f, { err := some e, count := (sg.map List.length).sum })
  | none =>
    (f.accept sg).bind fun (f, n) => (f.loop l).map fun (f, e) => ({ f with err := e }, { err := e, count := n })

/-- The end of `ssl_ll_write`, :723-729. -/
def F.llEnd (f : F) (e : Option Err) (n : Nat) : F × Ret :=
  (if f.err = none then { f with err := e } else f, { err := e, count := n })

/-- `ssl_ll_write` from the label `process_more` to the call of the handler, :673-707.  `e` is the error so far (`BIO_write`
failed); `SSL_get_error` is called with it in place of the result of `SSL_read` (:682), for an error so far it answers
`SSL_ERROR_NONE`, which becomes `GE_COMMERR`. -/
def F.more (f : F) (e : Option Err) (a : Rd) (n : Nat) : Option (F × Ret) :=
  let (f, e) :=
    if f.rdata = [] then
      let f := { f with wantR := false, wantW := false, rpos := 0 }
      match a with
      | .data d => ({ f with rdata := d, got := f.got ++ d }, e)
      | .no r => if e = none then f.handle r else (f, some .comm)
    else (f, e)
  if e = none ∧ f.rdata ≠ [] then
    if f.inUl then none else some ({ f with inUl := true }, { count := n, offer := some f.rdata })
  else some (f.llEnd e n)

/-- `ssl_ll_write` up to the call of the handler, :633-707 (without out-of-band data, which is ignored). -/
def F.llWrite (f : F) (buf : List UInt8) (b : BioW) (a : Rd) : Option (F × Ret) :=
  match f.err with
  | some e => some (f, { err := some e, count := buf.length })
  | none =>
    if buf = [] then f.more none a 0
    else match b with
      | .took n => f.more none a n
      | .later => f.more none a 0
      | .fail => f.more (some .comm) a buf.length

/-- `ssl_ll_write` from the return of the handler on, :708-729; `a` is the answer of `SSL_read` if it goes on. -/
def F.ulDone (f : F) (r : Except Err Nat) (a : Rd) : Option (F × Ret) :=
  let f := { f with inUl := false }
  match r with
  | .error e => some (f.llEnd (some e) 0)
  | .ok n =>
    if f.rdata.length ≤ n then
      let f := { f with given := f.given ++ f.rdata, rdata := [], rpos := 0 }
      if f.err = none ∧ f.connected then f.more none a 0 else some (f.llEnd none 0)
    else
      some (F.llEnd { f with given := f.given ++ f.rdata.take n, rdata := f.rdata.drop n, rpos := f.rpos + n } none 0)

/-- `ssl_try_connect`, :339-413 (with `ssl_start_con_timeout`, :330-337).  `SSL_connect` answers 1 (`none`) or not; the failure 0
is `other`. -/
def F.connect (f : F) (now : Int) (wasTimeout : Bool) (a : Option No) : F × Ret :=
  let f := if f.started then f else { f with started := true, contime := now + f.timeout }
  if wasTimeout then (f, { err := some .timedout })
  else
    let f := { f with wantR := false, wantW := false }
    match a with
    | none => ({ f with connected := true }, {})
    | some r =>
      let (f, e) := f.handle r
      match e with
      | some e => (f, { err := some e })
      | none => (f, { err := some .retry, wait := if f.contime - now < 0 then 0 else f.contime - now })

/-- What `SSL_shutdown` answers: 1, 0, or not. -/
inductive Shut | done | sent | no (r : No)
deriving DecidableEq, Repr

/-- `ssl_try_disconnect`, :415-475.  `both`: `SSL_get_shutdown` says that both sides have shut down.  `SSL_ERROR_ZERO_RETURN` is one
of the other errors here. -/
def F.disconnect (f : F) (both : Bool) (a : Shut) : F × Ret :=
  let f := { f with connected := false }
  if both then ({ f with err := some .localClosed }, {})
  else
    let f := { f with wantR := false, wantW := false }
    if !f.shutOk then
      match a with
      | .done => ({ f with shutOk := true, err := some .localClosed }, {})
      | .sent => ({ f with shutOk := true, wantR := true }, { err := some .inprogress })
      | .no .wantRead => ({ f with wantR := true }, { err := some .inprogress })
      | .no .wantWrite => ({ f with wantW := true }, { err := some .inprogress })
      | .no .proto => (f, { err := some .proto })
      | .no _ => (f, { err := some .comm })
    else ({ f with wantR := true }, { err := some .inprogress })

/-- `ssl_cleanup`, :764-791 (certificates and OpenSSL objects aside).  The notes begin again. -/
def F.cleanup (f : F) : F :=
  { f with err := none, rdata := [], rpos := 0, xbuf := [], xpos := 0, wdata := [], connected := false, shutOk := false,
           repeated := none, taken := [], sent := [], fromBio := [], toLl := [], got := [], given := [], masked := false, peeked := false }

/-- The calls. -/
inductive Op
  | ul (sg : List (List UInt8)) (l : List Pass)
  | ll (buf : List UInt8) (b : BioW) (a : Rd)
  | ulDone (r : Except Err Nat) (a : Rd)
  | connect (now : Int) (wasTimeout : Bool) (a : Option No)
  | disconnect (both : Bool) (a : Shut)
  | cleanup
deriving Repr

/-- One call. -/
def step (f : F) : Op → Option (F × Ret)
  | .ul sg l => f.ulWrite sg l
  | .ll buf b a => f.llWrite buf b a
  | .ulDone r a => f.ulDone r a
  | .connect now t a => some (f.connect now t a)
  | .disconnect both a => some (f.disconnect both a)
  | .cleanup => some (f.cleanup, {})

/-- Calls one after the other. -/
def run (f : F) : List Op → Option (F × List Ret)
  | [] => some (f, [])
  | o :: l => (step f o).bind fun (f, r) => (run f l).map fun (f, rs) => (f, r :: rs)

/-- A new filter, `gensio_ssl_filter_raw_alloc`, :1160-1220. -/
def init (maxR maxW : Nat) (timeout : Int) : F := { maxR, maxW, maxX := Nat.max (maxW + 128) 1024, timeout }

/-- `ssl_ll_write_pending`, :229-240; `pending` is `BIO_pending`. -/
def F.llPending (f : F) (pending : Bool) : Bool := pending || !f.wdata.isEmpty || !f.xbuf.isEmpty || f.wantW

/-- `ssl_ul_can_write`, :254-264. -/
def F.canWrite (f : F) : Bool := f.wdata.isEmpty && f.xbuf.isEmpty

/-! ## Certificates -/

/-- `gensio_ssl_cert_verify`, :1096-1158, as OpenSSL sees it: what it returns and the error in the context it was called with
(0 is `X509_V_OK`, which a new context has).  `pre` is the answer of the user to `GENSIO_EVENT_PRECERT_VERIFY` (0, `GE_NOTSUP` = 2, or a
refusal); `store`: there is a `verify_store`, then the verification is done in another context; `sys` and `own` are the
results of the verification against the store of the context and against `verify_store`; `always`: the context has
`ssl_verify_cb` (:266-271), with which `X509_verify_cert` succeeds always. -/
def certVerify (pre : Nat) (store always : Bool) (sys own : Nat) : Int × Nat :=
  if pre ≠ 0 ∧ pre ≠ 2 then (0, 0)
  else if store then (if own = 0 then 1 else 0, 0)
  else (if sys = 0 ∨ always then 1 else 0, sys)

/-- What OpenSSL does with it (`ssl_verify_cert_chain` and its callers): the connection fails if the verification failed and the
mode is `SSL_VERIFY_PEER` (the server, :1410-1420); else `SSL_get_verify_result` will be the error in the context. -/
def handshake (server : Bool) (r : Int × Nat) : Option Nat := if server ∧ r.1 ≤ 0 then none else some r.2

/-- `ssl_check_open_done`, :273-328: the result (0 or an error) and whether the gensio is marked as authenticated.  `cert`: the
peer has a certificate; `ver`: `SSL_get_verify_result`; `post`: the answer to `GENSIO_EVENT_POSTCERT_VERIFY`.  `GE_NOCERT` is 21,
`GE_CERTINVALID` is 22. -/
def checkOpen (expect cert : Bool) (ver post : Nat) (allow : Bool) : Nat × Bool :=
  let (rv, auth) :=
    if expect then
      if !cert then (21, false)
      else (if post = 2 then (if ver ≠ 0 then 22 else 0) else post, ver = 0)
    else (0, false)
  (if rv ≠ 0 ∧ allow then 0 else rv, auth)

/-- References to the certificate of the peer: those OpenSSL has, all there are, and `remcert` of the filter. -/
structure Cert where
  ssl : Nat := 0
  refs : Nat := 0
  rem : Bool := false
deriving DecidableEq, Repr

/-- What happens with the certificate. -/
inductive CertOp
  | arrive          -- OpenSSL reads the certificate: it has one reference
  | verify          -- `sfilter->remcert = cert`, :1104
  | check (bad : Bool) -- `SSL_get_peer_certificate` and, if `bad`, `X509_free`, :283, :312-313
  | reject          -- OpenSSL drops the certificate of a connection that failed
  | cleanup         -- `X509_free(remcert)`, `SSL_free`, :772-777
deriving DecidableEq, Repr

/-- `X509_free`: `none` if there is no such object any more. -/
def Cert.free (c : Cert) : Option Cert := if c.refs = 0 then none else some { c with refs := c.refs - 1 }

/-- `SSL_free`: OpenSSL gives back its references. -/
def Cert.sslFree (c : Cert) : Option Cert := if c.refs < c.ssl then none else some { c with refs := c.refs - c.ssl, ssl := 0 }

/-- One of them. -/
def Cert.step (c : Cert) : CertOp → Option Cert
  | .arrive => some { c with ssl := c.ssl + 1, refs := c.refs + 1 }
  | .verify => some { c with rem := true }
  | .check bad =>
    if c.ssl = 0 then some { c with rem := false }
    else if bad then ({ c with refs := c.refs + 1 } : Cert).free.map fun c => { c with rem := false }
    else some { c with refs := c.refs + 1, rem := true }
  | .reject => c.sslFree
  | .cleanup => (if c.rem then c.free else some c).bind fun c => ({ c with rem := false } : Cert).sslFree

/-! ## The user name -/

/-- Memory for the user name: the blocks that are allocated, the next one, and `username`. -/
structure Names where
  live : List Nat := []
  next : Nat := 0
  username : Option Nat := none
deriving DecidableEq, Repr

/-- What happens with it: the caller allocates or frees a block of its own, sets the name from it, asks for the name. -/
inductive NameOp | alloc | free (i : Nat) | set (i : Nat) | get
deriving DecidableEq, Repr

/-- `o->free`. -/
def Names.free (s : Names) (i : Nat) : Option Names := if i ∈ s.live then some { s with live := s.live.erase i } else none

/-- `GENSIO_CONTROL_USERNAME`, :990-1017: the copy is made (:1004), the old name freed (:1010-1011), and the pointer of the caller is
kept, not the copy (:1012). -/
def Names.step (s : Names) : NameOp → Option Names
  | .alloc => some { s with live := s.next :: s.live, next := s.next + 1 }
  | .free i => s.free i
  | .set i =>
    let s := { s with live := s.next :: s.live, next := s.next + 1 }
    let r : Option Names := match s.username with
      | some u => s.free u
      | none => some s
    r.map fun s => { s with username := some i }
  | .get =>
    match s.username with
    | none => some s
    | some u => if u ∈ s.live then some s else none

end Gensio.Ssl
