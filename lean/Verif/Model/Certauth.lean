/-!
# The authentication filter, `lib/gensio_certauth.c`

One `struct certauth_filter`, for a client or a server.  The calls are those of the filter: data from the lower layer
(`certauth_ll_write`), the step of the handshake (`certauth_try_connect`), the end of the handshake (`certauth_check_open_done`),
output to the lower layer (`certauth_ul_write`) and `certauth_cleanup`.

Simplifications:
* Error numbers are those of `gensio_err.h`; 0 is no error.
* OpenSSL is represented by its results (`Crypto`, and `Ans.sign`); a certificate is a number.  A certificate whose PEM text
  does not fit in the write buffer makes OpenSSL reallocate memory inside it, which is `none`.
* The application is represented by what it answers to the events of one step (`Ans`).  Nothing else happens to the filter while
  an event is handled without the lock; `certauth_filter_control` is left out, but for the certificate store it only replaces
  data of the local side.
* Allocation succeeds.  Times are left out: `GE_RETRY` and `GE_INPROGRESS` are results, `was_timeout` is an argument.
* The read buffer is the list of the bytes read of the current element, the write buffer the list of its `write_buf_len` bytes.
* `username`, `password` and so on with their lengths are lists; a client's password is filled with zeros to 100 bytes.
* The result `none` is undefined behaviour: reading past the data, writing past a buffer, a failed assertion.
* `tr` is not in the code: what happened to the filter, newest first.
-/

namespace Gensio.Certauth

/-- `GE_NOMEM`, `include/gensio/gensio_err.h:19`. -/
def geNomem : Nat := 1
/-- `GE_NOTSUP`, `include/gensio/gensio_err.h:20`. -/
def geNotsup : Nat := 2
/-- `GE_INVAL`, `include/gensio/gensio_err.h:21`. -/
def geInval : Nat := 3
/-- `GE_NOTREADY`, `include/gensio/gensio_err.h:30`. -/
def geNotready : Nat := 12
/-- `GE_TOOBIG`, `include/gensio/gensio_err.h:31`. -/
def geToobig : Nat := 13
/-- `GE_TIMEDOUT`, `include/gensio/gensio_err.h:32`. -/
def geTimedout : Nat := 14
/-- `GE_NOCERT`, `include/gensio/gensio_err.h:39`. -/
def geNocert : Nat := 21
/-- `GE_CERTINVALID`, `include/gensio/gensio_err.h:40`. -/
def geCertinvalid : Nat := 22
/-- `GE_PROTOERR`, `include/gensio/gensio_err.h:41`. -/
def geProtoerr : Nat := 23
/-- `GE_IOERR`, `include/gensio/gensio_err.h:43`. -/
def geIoerr : Nat := 25
/-- `GE_DATAMISSING`, `include/gensio/gensio_err.h:47`. -/
def geDatamissing : Nat := 29
/-- `GE_AUTHREJECT`, `include/gensio/gensio_err.h:49`. -/
def geAuthreject : Nat := 31

/-- `CERTAUTH_CLIENT_START`, :234. -/
def stStart : Nat := 0
/-- `CERTAUTH_CLIENTHELLO`, :250. -/
def stClientHello : Nat := 1
/-- `CERTAUTH_SERVERHELLO`, :265. -/
def stServerHello : Nat := 2
/-- `CERTAUTH_CHALLENGE_RESPONSE`, :299. -/
def stChalRsp : Nat := 3
/-- `CERTAUTH_PASSWORD_REQUEST`, :310. -/
def stPwReq : Nat := 4
/-- `CERTAUTH_PASSWORD`, :320. -/
def stPassword : Nat := 5
/-- `CERTAUTH_SERVERDONE`, :328. -/
def stServerDone : Nat := 6
/-- `CERTAUTH_WAIT_WRITE_DONE`, :334. -/
def stWaitWrite : Nat := 107
/-- `CERTAUTH_PASSTHROUGH`, :339. -/
def stPass : Nat := 108
/-- `CERTAUTH_ERR`, :344. -/
def stErr : Nat := 109
/-- `CERTAUTH_CLIENTDELAY`, :275. -/
def stDelay : Nat := 110

/-- `CERTAUTH_RESULT_SUCCESS`, :448. -/
def rSuccess : Nat := 1
/-- `CERTAUTH_RESULT_FAILURE`, :449. -/
def rFailure : Nat := 2
/-- `CERTAUTH_RESULT_ERR`, :450. -/
def rErr : Nat := 3

/-- `GENSIO_CERTAUTH_DATA_SIZE`, :202: the size of both buffers. -/
def dataSize : Nat := 2048
/-- `GENSIO_CERTAUTH_CHALLENGE_SIZE`, :203. -/
def chalSize : Nat := 32

/-- OpenSSL. -/
structure Crypto where
  /-- `PEM_read_bio_X509`. -/
  parse : List UInt8 → Option Nat
  /-- `PEM_write_bio_X509`. -/
  pem : Nat → List UInt8
  /-- The signature check of :1033-1047 (`v4 = false`) and :1100-1112 with a digest: `none` is an error. -/
  check : (v4 : Bool) → (digest : Nat) → (cert : Nat) → (data sig : List UInt8) → Option Bool
  /-- The check of a certificate, :784-798: 0 or an error. -/
  verify : Nat → Nat

/-- What has happened. -/
inductive Ev
  /-- An element was handled while in this state. -/
  | elem (st tag : Nat) (data : List UInt8)
  /-- The lower layer said that it has authenticated the other side. -/
  | child
  /-- The application answered to `GENSIO_EVENT_AUTH_BEGIN`. -/
  | authBegin (r : Nat)
  /-- The application answered to `GENSIO_EVENT_PRECERT_VERIFY`. -/
  | precert (r : Nat)
  /-- A signature of a challenge and a service was checked. -/
  | sig (cert : Nat) (chal svc sg : List UInt8) (ok : Bool)
  /-- A certificate was checked with a result, and the application answered to `GENSIO_EVENT_POSTCERT_VERIFY`. -/
  | verify (cert e post : Nat)
  /-- The application answered to `GENSIO_EVENT_PASSWORD_VERIFY`. -/
  | password (pw : List UInt8) (r : Nat)
  /-- The application answered to `GENSIO_EVENT_2FA_VERIFY`. -/
  | twofa (v : List UInt8) (r : Nat)
  /-- A challenge was made for the other side. -/
  | challenge (c : List UInt8)
  deriving DecidableEq, Repr

/-- `struct certauth_filter`, :463-566. -/
structure F where
  isClient : Bool
  state : Nat
  pendingErr : Nat := 0
  version : Nat := 0
  myVersion : Nat := 4
  result : Nat := 0
  responseResult : Nat := 0
  verified : Bool := false
  useChildAuth : Bool := false
  enablePassword : Bool := false
  requirePassword : Bool := false
  do2fa : Bool := false
  allowAuthfail : Bool := false
  username : Option (List UInt8) := none
  service : Option (List UInt8) := none
  passwordReqVal : Nat := 0
  password : Option (List UInt8) := none
  req2fa : Bool := false
  val2fa : Option (List UInt8) := none
  aux : Option (List UInt8) := none
  remAux : Option (List UInt8) := none
  challenge : Option (List UInt8) := none
  cert : Option Nat := none
  pkey : Bool := false
  /-- 0 is NULL, 1 is `rsa_md5`, 2 is `sha3_512`. -/
  digest : Nat := 0
  readBuf : List UInt8 := []
  writeBuf : List UInt8 := []
  writePos : Nat := 0
  currMsg : Nat := 0
  currElem : Nat := 0
  currLen : Nat := 0
  b1 : Bool := false
  b2 : Bool := false
  gotMsg : Bool := false
  tr : List Ev := []
  deriving DecidableEq, Repr

/-! ## Output -/

/-- `certauth_write`, :701-711. -/
def write (f : F) (d : List UInt8) : F :=
  if d.length + f.writeBuf.length > dataSize then { f with pendingErr := geToobig }
  else { f with writeBuf := f.writeBuf ++ d }

/-- `certauth_u16_to_buf`, :725-730. -/
def u16 (v : Nat) : List UInt8 := [UInt8.ofNat (v / 256 % 256), UInt8.ofNat (v % 256)]

/-- `certauth_buf_to_u16`, :732-736. -/
def toU16 (d : List UInt8) : Nat := (d.getD 0 0).toNat * 256 + (d.getD 1 0).toNat

/-- `certauth_write_byte` of a number, :738-742. -/
def writeByte (f : F) (v : Nat) : F := write f [UInt8.ofNat v]

/-- `certauth_write_u16`, :744-751. -/
def writeU16 (f : F) (v : Nat) : F := write f (u16 v)

/-- An element: its number, its length and its data, as in :1227-1229 and other places. -/
def writeElem (f : F) (tag : Nat) (d : List UInt8) : F := write (writeU16 (writeByte f tag) d.length) d

/-- `certauth_add_dummy` with `certauth_write_zeros`, :1141-1147 and :713-723. -/
def addDummy (f : F) (len : Nat) : F := writeElem f 109 (List.replicate len 0)

/-- `certauth_add_cert`, :827-849. -/
def addCert (C : Crypto) (f : F) (c : Nat) : Option F :=
  let f := writeByte f 105
  if f.writeBuf.length + 2 + (C.pem c).length > dataSize then none
  else some { f with writeBuf := f.writeBuf ++ u16 (C.pem c).length ++ C.pem c }

/-- `certauth_add_challenge_rsp`, :940-1009, and `v3_certauth_add_challenge_rsp`, :881-938: with the signature that OpenSSL
gives, or an error.  On an error the bytes written so far are left, and `finish_result` discards them.  The bytes for the
length are reserved without a check, which is `none` if they are outside of the buffer. -/
def addRsp (f : F) (sign : Except Nat (List UInt8)) : Option (F × Nat) :=
  let f := writeByte f 104
  if f.writeBuf.length + 2 > dataSize then none
  else
    match sign with
    | .error e => some ({ f with writeBuf := f.writeBuf ++ [0, 0] }, e)
    | .ok s =>
      if dataSize - (f.writeBuf.length + 2) < s.length then some ({ f with writeBuf := f.writeBuf ++ [0, 0] }, geToobig)
      else some ({ f with writeBuf := f.writeBuf ++ u16 s.length ++ s }, 0)

/-- `certauth_send_server_done`, :1149-1167. -/
def sendServerDone (f : F) : F :=
  let f := if f.result = 0 then { f with result := rFailure } else f
  let r := if f.allowAuthfail then rSuccess else f.result
  let r := if f.result = rErr then rFailure else r
  let f := { f with writeBuf := [] }
  let f := writeByte f stServerDone
  let f := writeElem f 106 (u16 r)
  writeByte f 200

/-! ## Elements -/

/-- `limited_strlen`, :1799-1809: the pointer is not advanced. -/
def limitedStrlen (s : List UInt8) (max : Nat) : Nat := if max = 0 ∨ s.getD 0 0 = 0 then 0 else max

/-- `certauth_get_cert`, :851-879. -/
def getCert (C : Crypto) (f : F) : F :=
  match C.parse f.readBuf with
  | none => { f with pendingErr := geNocert }
  | some c => { f with cert := some c, pendingErr := 0 }

/-- `certauth_check_challenge`, :1067-1139, and `v3_certauth_check_challenge`, :1011-1065. -/
def checkChallenge (C : Crypto) (f : F) : F :=
  match f.cert with
  | none => { f with pendingErr := geNomem }
  | some c =>
    let chal := f.challenge.getD []
    let svc := f.service.getD []
    match C.check (4 ≤ f.version && 4 ≤ f.myVersion) f.digest c (chal ++ svc) f.readBuf with
    | none => { f with pendingErr := geNomem }
    | some ok =>
      { f with responseResult := if ok then rSuccess else rFailure, pendingErr := 0,
               tr := .sig c chal svc f.readBuf ok :: f.tr }

/-- `certauth_handle_new_element`, :1811-2005; all of the element is in `readBuf`. -/
def handleElem (C : Crypto) (f : F) : F :=
  let bad : F := { f with pendingErr := geProtoerr }
  match f.currElem with
  | 100 =>
    if f.version ≠ 0 then bad
    else if f.currLen ≠ 2 then bad
    else
      let f := { f with version := toU16 f.readBuf }
      if f.version = 0 then { f with pendingErr := geProtoerr } else f
  | 101 => if f.username.isSome then bad else { f with username := some f.readBuf }
  | 107 => if f.service.isSome then bad else { f with service := some f.readBuf }
  | 110 =>
    if f.passwordReqVal ≠ 0 then bad
    else if f.currLen ≠ 2 then bad
    else
      let v := toU16 f.readBuf
      let f := { f with req2fa := v / 256 % 2 = 1, passwordReqVal := v % 256 }
      if f.passwordReqVal = 0 then { f with pendingErr := geProtoerr } else f
  | 108 => if f.password.isSome then bad else { f with password := some (f.readBuf.take (limitedStrlen f.readBuf f.currLen)) }
  | 111 => if 0 < (f.val2fa.getD []).length then bad else { f with val2fa := some f.readBuf }
  | 112 => if 0 < (f.remAux.getD []).length then bad else { f with remAux := some f.readBuf }
  | 103 => if f.challenge.isSome then bad else { f with challenge := some f.readBuf }
  | 104 => if f.responseResult ≠ 0 then bad else checkChallenge C f
  | 105 => if f.cert.isSome then bad else getCert C f
  | 106 =>
    if f.result ≠ 0 then bad
    else if f.currLen ≠ 2 then bad
    else
      let f := { f with result := toU16 f.readBuf }
      if f.result = 0 then { f with pendingErr := geProtoerr } else f
  | _ => f

/-- The element is handled and the next one begins, :2117-2122. -/
def elemDone (C : Crypto) (f : F) : F :=
  let f := { f with tr := .elem f.state f.currElem f.readBuf :: f.tr }
  { handleElem C f with currElem := 0, b1 := false, b2 := false, readBuf := [] }

/-! ## Input -/

/-- The part of `certauth_ll_write` from `restart`, :2071-2128, with the number of rounds left.  The rest of the data is given
back. -/
def parseElems (C : Crypto) : Nat → F → List UInt8 → Option (F × List UInt8)
  | 0, _, _ => none
  | n + 1, f, buf =>
    match (if f.currElem = 0 then
        match buf with
        | [] => none
        | c :: buf =>
          if c.toNat = 200 then some (true, { f with currElem := 200, currMsg := 0, gotMsg := true }, buf)
          else if c.toNat > 112 ∨ c.toNat < 100 then some (true, { f with currElem := c.toNat, pendingErr := geProtoerr }, buf)
          else some (false, { f with currElem := c.toNat }, buf)
      else some (false, f, buf) : Option (Bool × F × List UInt8)) with
    | none => none
    | some (true, f, buf) => some (f, buf)
    | some (false, f, buf) =>
      match buf with
      | [] => some (f, [])
      | c :: buf' =>
        let x : F × List UInt8 := if f.b1 then (f, buf) else ({ f with b1 := true, currLen := c.toNat * 256 }, buf')
        match x.2 with
        | [] => some (x.1, [])
        | c :: buf' =>
          let y : F × List UInt8 := if x.1.b2 then (x.1, x.2) else ({ x.1 with b2 := true, currLen := x.1.currLen + c.toNat }, buf')
          if !x.1.b2 && (y.1.currLen = 0 || y.1.currLen > dataSize) then some ({ y.1 with pendingErr := geProtoerr }, x.2)
          else
            let f := y.1
            let left := f.currLen - f.readBuf.length
            if left ≤ y.2.length then
              if f.readBuf.length + left > dataSize then none
              else parseElems C n (elemDone C { f with readBuf := f.readBuf ++ y.2.take left }) (y.2.drop left)
            else if f.readBuf.length + y.2.length > dataSize then none
            else some ({ f with readBuf := f.readBuf ++ y.2 }, [])

/-- `certauth_ll_write`, :2007-2139, without `oob` data (`auxdata` is NULL, :2541): the filter, the data that was not taken, and
the error.  After the handshake all data goes to the user. -/
def llWrite (C : Crypto) (f : F) (buf : List UInt8) : Option (F × List UInt8 × Nat) :=
  match buf with
  | [] => some (f, [], 0)
  | c :: buf' =>
    if f.state = stPass then some (f, [], 0)
    else if f.pendingErr ≠ 0 then some (f, buf, f.pendingErr)
    else
      let x : Bool × F × List UInt8 :=
        if f.currMsg = 0 then
          let f := { f with currMsg := c.toNat }
          if c.toNat > 6 then (true, { f with pendingErr := geProtoerr }, buf')
          else
            let f := { f with currElem := 0, b1 := false, b2 := false, readBuf := [] }
            if f.isClient && c.toNat = stServerDone then (false, { f with state := stServerDone }, buf')
            else if c.toNat ≠ f.state then (true, { f with pendingErr := geProtoerr }, buf')
            else (false, f, buf')
        else (false, f, buf)
      if x.1 || x.2.2.isEmpty then some (x.2.1, x.2.2, x.2.1.pendingErr)
      else (parseElems C (x.2.2.length + 2) x.2.1 x.2.2).map fun y => (y.1, y.2, y.1.pendingErr)

/-- `certauth_ul_write` without data of the user, :1778-1792, when the lower layer takes at most `n` bytes: the bytes that it
takes.  A position after the end is `none`, since the length given to the lower layer is then negative. -/
def ulWrite (f : F) (n : Nat) : Option (F × List UInt8) :=
  if f.writeBuf.isEmpty then some (f, [])
  else if f.writeBuf.length < f.writePos then none
  else
    let d := (f.writeBuf.drop f.writePos).take n
    if d.length + f.writePos ≥ f.writeBuf.length then some ({ f with writeBuf := [], writePos := 0 }, d)
    else some ({ f with writePos := f.writePos + d.length }, d)

/-! ## The handshake -/

/-- What the application and OpenSSL answer in one step. -/
structure Ans where
  childAuth : Bool := false
  authBegin : Nat := geNotsup
  precert : Nat := geNotsup
  postcert : Nat := geNotsup
  password : Nat := geNotsup
  twofa : Nat := geNotsup
  /-- `RAND_bytes` for the challenge: 32 bytes. -/
  rand : Option (List UInt8) := none
  /-- `RAND_bytes` for the delay. -/
  randOk : Bool := true
  /-- The signature of the client. -/
  sign : Except Nat (List UInt8) := .error geNomem
  /-- `GENSIO_EVENT_REQUEST_PASSWORD`: the error and the password. -/
  reqPassword : Nat × List UInt8 := (geNotsup, [])
  /-- `GENSIO_EVENT_REQUEST_2FA`: the error and the data. -/
  req2fa : Nat × List UInt8 := (geNotsup, [])

/-- What `certauth_try_connect` returns. -/
inductive Rv
  /-- `GE_RETRY`. -/
  | retry
  /-- `GE_INPROGRESS`. -/
  | inprogress
  /-- `out_finish`: an error, or 0 when the handshake is done. -/
  | done (e : Nat)
  deriving DecidableEq, Repr

/-- `out_finish`, :1745-1746. -/
def outFinish (f : F) : F × Rv := (f, .done f.pendingErr)

/-- After the `switch`, :1732-1741. -/
def brk (f : F) : F × Rv := ({ f with gotMsg := false }, .retry)

/-- `finish_result`, :1691-1702. -/
def finishResult (f : F) : F × Rv :=
  let f := sendServerDone f
  if f.pendingErr ≠ 0 then outFinish { f with state := stErr } else ({ f with state := stWaitWrite }, .inprogress)

/-- `finish_result` with an error. -/
def fail (f : F) (e : Nat) : F × Rv := finishResult { f with pendingErr := e }

/-- `set_digest`, :1178-1185. -/
def setDigest (f : F) : F := { f with digest := if 3 ≤ f.version ∧ 3 ≤ f.myVersion then 2 else 1 }

/-- An element that is only written if there is data, as in :1226-1235 and :1313-1317. -/
def writeOpt (f : F) (tag : Nat) (d : Option (List UInt8)) : F :=
  match d with
  | none => f
  | some d => if d.isEmpty then f else writeElem f tag d

/-- The case `CERTAUTH_CLIENT_START`, :1220-1240. -/
def clientStart (f : F) : F × Rv :=
  let f := { f with writeBuf := [] }
  let f := writeByte f stClientHello
  let f := writeElem f 100 (u16 f.myVersion)
  let f := writeOpt f 101 f.username
  let f := writeOpt f 107 f.service
  let f := writeByte f 200
  brk { f with state := stServerHello }

/-- The case `CERTAUTH_CLIENTHELLO` up to the event, :1242-1273. -/
def helloAuth (f : F) (a : Ans) : F :=
  let f := setDigest f
  if f.useChildAuth && a.childAuth then { f with result := rSuccess, tr := .child :: f.tr } else f

/-- The answer to `GENSIO_EVENT_AUTH_BEGIN`, :1280-1296: whether to go on. -/
def authBegin (f : F) (r : Nat) : Bool × F :=
  let f := { f with tr := .authBegin r :: f.tr }
  if r = 0 then (true, { f with result := rSuccess })
  else if r = geAuthreject then (true, { f with result := rErr })
  else if r ≠ geNotsup then (false, { f with pendingErr := r })
  else (true, f)

/-- The case `CERTAUTH_CLIENTHELLO`, :1242-1322. -/
def clientHello (f : F) (a : Ans) : F × Rv :=
  if f.version = 0 then brk { f with pendingErr := geDatamissing }
  else if f.do2fa ∧ f.version < 2 then brk { f with pendingErr := geInval }
  else
    let x := authBegin (helloAuth f a) a.authBegin
    if !x.1 then finishResult x.2
    else
      let f := { x.2 with writeBuf := [] }
      let f := writeByte f stServerHello
      let f := writeElem f 100 (u16 f.myVersion)
      match a.rand with
      | none => brk { writeU16 (writeByte f 103) (f.challenge.getD []).length with pendingErr := geIoerr }
      | some c =>
        let f := { f with challenge := some c, tr := .challenge c :: f.tr }
        let f := writeElem f 103 c
        let f := if 2 ≤ f.version then writeOpt f 112 f.aux else f
        let f := writeByte f 200
        brk { f with state := stChalRsp }

/-- The case `CERTAUTH_SERVERHELLO`, :1324-1355. -/
def serverHello (f : F) (a : Ans) : F × Rv :=
  if f.result ≠ 0 then
    if f.result ≠ rSuccess then outFinish { f with pendingErr := geAuthreject } else outFinish { f with state := stPass }
  else if f.challenge.isNone ∨ f.version = 0 then brk { f with pendingErr := geDatamissing }
  else if !a.randOk then brk { f with pendingErr := geDatamissing }
  else ({ f with gotMsg := false, state := stDelay }, .retry)

/-- The case `CERTAUTH_CLIENTDELAY`, :1357-1398. -/
def clientDelay (C : Crypto) (f : F) (a : Ans) (wasTimeout : Bool) : Option (F × Rv) :=
  if !wasTimeout then some (if f.gotMsg then fail f geNotready else (f, .retry))
  else do
    let f := setDigest f
    let f := { f with writeBuf := [] }
    let f := writeByte f stChalRsp
    let f ← (match f.cert with
      | some c => addCert C f c
      | none => some (addDummy f 1265))
    let x ← (if f.pkey then addRsp f a.sign else some (addDummy f 256, 0))
    if f.pkey ∧ x.2 ≠ 0 then return fail x.1 x.2
    let f := x.1
    let f := if 2 ≤ f.version then writeOpt f 112 f.aux else f
    let f := writeByte f 200
    return brk { f with state := stPwReq }

/-- `try_password` and `try_password2` with the request, :1476-1487. -/
def askPassword (f : F) (req : Nat) : F × Rv :=
  let req := if f.do2fa then req + 256 else req
  let f := { f with writeBuf := [] }
  let f := writeByte f stPwReq
  let f := writeElem f 110 (u16 req)
  let f := writeByte f 200
  brk { f with state := stPassword }

/-- `try_password`, :1471-1475. -/
def tryPassword (f : F) : F × Rv := askPassword f (if f.result = 0 ∧ f.enablePassword then 1 else 2)

/-- `certauth_verify_cert`, :765-825: the filter and what it returns. -/
def verifyCert (C : Crypto) (f : F) (c : Nat) (post : Nat) : F × Nat :=
  let e := C.verify c
  let rv := if post = geNotsup then (if e ≠ 0 then geNotsup else 0) else post
  let f := { f with tr := .verify c e post :: f.tr }
  (if rv = 0 then { f with verified := true } else f, rv)

/-- The answer to `GENSIO_EVENT_PRECERT_VERIFY`, :1424-1441: whether to go on. -/
def precert (f : F) (r : Nat) : Bool × F :=
  if f.result ≠ 0 then (true, f)
  else
    let f := { f with tr := .precert r :: f.tr }
    if r = 0 then (true, { f with result := rSuccess })
    else if r = geAuthreject then (true, { f with result := rErr })
    else if r ≠ geNotsup then (false, { f with pendingErr := r })
    else (true, f)

/-- The case `CERTAUTH_CHALLENGE_RESPONSE`, :1400-1487. -/
def challengeRsp (C : Crypto) (f : F) (a : Ans) : F × Rv :=
  if f.result = rSuccess then tryPassword f
  else
    match f.cert with
    | none => if !f.enablePassword then fail f geAuthreject else tryPassword f
    | some c =>
      if f.responseResult = 0 then fail f geProtoerr
      else
        let x := precert f a.precert
        if !x.1 then finishResult x.2
        else
          let y := verifyCert C x.2 c a.postcert
          let f := y.1
          if f.result = 0 then
            if y.2 = geAuthreject then
              let f := { f with result := rErr }
              if f.verified ∧ f.responseResult = rSuccess then
                let f := { f with result := rSuccess }
                if f.requirePassword then askPassword f 1 else tryPassword f
              else tryPassword f
            else if y.2 ≠ 0 ∧ y.2 ≠ geNotsup then fail f y.2
            else if f.verified ∧ f.responseResult = rSuccess then
              let f := { f with result := rSuccess }
              if f.requirePassword then askPassword f 1 else tryPassword f
            else tryPassword f
          else tryPassword f

/-- From `password_done`, :1546-1604. -/
def send2fa (f : F) (a : Ans) : F × Rv :=
  let fin (f : F) : F × Rv := brk { writeByte f 200 with state := stServerDone }
  match f.val2fa with
  | some v => if f.version < 2 then fail f geInval else
      let f := writeElem f 111 v
      if f.pendingErr ≠ 0 then finishResult f else fin f
  | none =>
    if !f.req2fa then fin f
    else if a.req2fa.1 ≠ 0 ∧ a.req2fa.1 ≠ geNotsup then fail f a.req2fa.1
    else
      let v := if a.req2fa.1 = 0 then a.req2fa.2 else []
      if v.length > 65535 ∨ v.length < 1 then fail f geToobig
      else
        let f := writeElem f 111 v
        if f.pendingErr ≠ 0 then finishResult f else fin f

/-- A password filled with zeros to 100 bytes, `strncpy` at :2620 and the memory of :2605. -/
def padPassword (p : List UInt8) : List UInt8 := p ++ List.replicate (100 - p.length) 0

/-- The case `CERTAUTH_PASSWORD_REQUEST`, :1489-1604. -/
def passwordReq (f : F) (a : Ans) : F × Rv :=
  if f.passwordReqVal = 0 then fail f geDatamissing
  else
    let f := { f with writeBuf := [] }
    let pw := f.password.getD []
    if f.passwordReqVal ≠ 1 then send2fa (addDummy (writeByte f stPassword) pw.length) a
    else if !f.enablePassword then send2fa (writeElem (writeByte f stPassword) 108 (List.replicate pw.length 0)) a
    else if pw.getD 0 0 = 0 then
      if a.reqPassword.1 ≠ 0 ∧ a.reqPassword.1 ≠ geNotsup then fail f a.reqPassword.1
      else
        let p := if a.reqPassword.1 = 0 then (padPassword a.reqPassword.2).take pw.length else List.replicate pw.length 0
        send2fa { writeElem (writeByte f stPassword) 108 p with password := some (List.replicate pw.length 0) } a
    else send2fa (writeElem (writeByte f stPassword) 108 pw) a

/-- `check_2fa`, :1662-1689. -/
def check2fa (f : F) (r : Nat) : F × Rv :=
  let f := { f with tr := .twofa (f.val2fa.getD []) r :: f.tr, val2fa := none }
  let f := if r = 0 then { f with result := rSuccess }
    else if r = geCertinvalid then f
    else if r ≠ geNotsup then { f with pendingErr := r }
    else f
  finishResult f

/-- The answer to `GENSIO_EVENT_PASSWORD_VERIFY`, :1650-1658. -/
def passwordAns (f : F) (r : Nat) : F :=
  if r = 0 then { f with result := rSuccess }
  else if r = geCertinvalid then f
  else if r ≠ geNotsup then { f with pendingErr := r }
  else f

/-- The case `CERTAUTH_PASSWORD`, :1606-1702. -/
def passwordCase (f : F) (a : Ans) : F × Rv :=
  if f.do2fa ∧ f.val2fa.isNone then fail f geDatamissing
  else if f.result ≠ 0 ∧ !f.requirePassword then
    if f.val2fa.isSome ∧ f.result = rSuccess then check2fa { f with result := 0 } a.twofa else finishResult f
  else if (f.enablePassword ∨ f.requirePassword) ∧ f.password.isNone then fail f geDatamissing
  else
    match f.password with
    | none => finishResult f
    | some pw =>
      if pw.getD 0 0 = 0 then finishResult f
      else
        let f := passwordAns { f with tr := .password pw a.password :: f.tr, password := some (List.replicate pw.length 0) } a.password
        if !f.do2fa then finishResult f else check2fa f a.twofa

/-- The case `CERTAUTH_SERVERDONE`, :1704-1719. -/
def serverDone (f : F) : F × Rv :=
  if f.result = 0 then outFinish { f with pendingErr := geDatamissing }
  else if f.result ≠ rSuccess then outFinish { f with pendingErr := geAuthreject }
  else outFinish { f with state := stPass }

/-- `certauth_try_connect`, :1187-1750. -/
def tryConnect (C : Crypto) (f : F) (wasTimeout : Bool) (a : Ans) : Option (F × Rv) :=
  if f.pendingErr ≠ 0 then some (outFinish f)
  else if !f.gotMsg && !wasTimeout then some (f, .inprogress)
  else if wasTimeout ∧ f.state ≠ stDelay then some (fail f geTimedout)
  else
    match f.state with
    | 0 => some (clientStart f)
    | 1 => some (clientHello f a)
    | 2 => some (serverHello f a)
    | 110 => clientDelay C f a wasTimeout
    | 3 => some (challengeRsp C f a)
    | 4 => some (passwordReq f a)
    | 5 => some (passwordCase f a)
    | 6 => some (serverDone f)
    | 107 => if f.writeBuf.isEmpty then some (outFinish { f with state := stPass }) else some (f, .retry)
    | _ => none

/-- `certauth_check_open_done`, :680-699: what it returns, and whether the connection is marked as authenticated. -/
def checkOpenDone (f : F) : F × Nat × Bool :=
  let f := if f.result = 0 then { f with result := rFailure } else f
  if f.result = rSuccess then (f, 0, true)
  else if f.result = rErr then (f, geAuthreject, false)
  else if f.isClient ∨ !f.allowAuthfail then (f, geAuthreject, false)
  else (f, 0, false)

/-- `certauth_cleanup`, :2155-2212. -/
def cleanup (f : F) : F :=
  let f :=
    if f.isClient then { f with challenge := none, password := f.password.map fun p => List.replicate p.length 0 }
    else { f with cert := none, password := none, username := none, service := none }
  { f with
    val2fa := none, aux := none, remAux := none, pendingErr := 0, passwordReqVal := 0, readBuf := [], writeBuf := [],
    writePos := 0, version := 0, result := 0, responseResult := 0, verified := false }

/-- What the user chooses, `struct gensio_certauth_filter_data`, :35-60. -/
structure Cfg where
  isClient : Bool := false
  myVersion : Nat := 4
  useChildAuth : Bool := false
  enablePassword : Bool := false
  requirePassword : Bool := false
  do2fa : Bool := false
  allowAuthfail : Bool := false
  username : Option (List UInt8) := none
  service : Option (List UInt8) := none
  password : Option (List UInt8) := none
  val2fa : Option (List UInt8) := none
  cert : Option Nat := none

/-- `gensio_certauth_filter_raw_alloc`, :2564-2696. -/
def init (c : Cfg) : F :=
  { isClient := c.isClient, state := if c.isClient then stStart else stClientHello, myVersion := c.myVersion,
    useChildAuth := c.useChildAuth, enablePassword := c.enablePassword, requirePassword := c.requirePassword,
    do2fa := c.do2fa, allowAuthfail := c.allowAuthfail, username := c.username, service := c.service,
    password := if c.isClient then some (padPassword (c.password.getD [])) else none,
    val2fa := if c.isClient then c.val2fa else none, cert := c.cert, pkey := c.cert.isSome,
    challenge := if c.isClient then none else some (List.replicate chalSize 0), gotMsg := c.isClient }

/-- A call of the filter. -/
inductive In
  /-- Data from the lower layer. -/
  | recv (d : List UInt8)
  /-- `certauth_try_connect`. -/
  | conn (wasTimeout : Bool) (a : Ans)
  /-- The lower layer takes at most that many bytes. -/
  | send (n : Nat)

/-- One call. -/
def step (C : Crypto) (f : F) : In → Option F
  | .recv d => (llWrite C f d).map (·.1)
  | .conn t a => (tryConnect C f t a).map (·.1)
  | .send n => (ulWrite f n).map (·.1)

/-- Some calls, oldest first. -/
def run (C : Crypto) (f : F) : List In → Option F
  | [] => some f
  | i :: l => (step C f i).bind fun f => run C f l

end Gensio.Certauth
