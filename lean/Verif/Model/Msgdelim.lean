import Verif.Model.Crc
/-!
# Model of lib/gensio_msgdelim.c

`read_data` and `write_data` are the lists of the bytes held in them, together with the size
of the allocation: a store past the allocation is the outcome `none`.  Locking is left out.
-/
namespace Gensio.Msgdelim

/-- The sizes: `struct msgdelim_config` and the allocations made in
`gensio_msgdelim_filter_raw_alloc`, lib/gensio_msgdelim.c:465-514. -/
structure Cfg where
  /-- `config.max_read_size` as used by the receiver (:314). -/
  limit : Nat
  /-- Bytes allocated for `read_data` (:491). -/
  rcap : Nat
  /-- `config.max_write_size`. -/
  maxWrite : Nat
  /-- `buf_max_write`, bytes allocated for `write_data` (:485, :495). -/
  wcap : Nat
  crc : Bool
deriving DecidableEq, Repr

/-- `gensio_msgdelim_filter_raw_alloc`, :465-514: the limit is the configured size plus 2, the
allocation is the configured size. -/
def Cfg.alloc (maxRead maxWrite : Nat) (crc : Bool) : Cfg :=
  { limit := maxRead + 2, rcap := maxRead, maxWrite, wcap := (maxWrite + 2) * 2 + 4, crc }

/-! ### Receiver -/

/-- Receive fields of `struct msgdelim_filter`, :73-86.  `rd` is
`read_data[read_data_pos ..]` of length `read_data_len` (`read_data_pos` is 0 whenever bytes
are added). -/
structure Rx where
  inCmd : Bool := false
  inMsg : Bool := false
  complete : Bool := false
  rd : List UInt8 := []
deriving DecidableEq, Repr

/-- `handle_data:`, :311-318. -/
def store (c : Cfg) (s : Rx) (b : UInt8) : Option Rx :=
  if !s.inMsg then some s
  else if s.rd.length ≥ c.limit then some { s with inMsg := false }
  else if s.rd.length < c.rcap then some { s with rd := s.rd ++ [b] }
  else none

/-- The body of the loop of `msgdelim_ll_write`, :274-319. -/
def rxByte (c : Cfg) (s : Rx) (b : UInt8) : Option Rx :=
  if s.inCmd then
    let s := { s with inCmd := false }
    if b = 0 then store c s 254
    else if b = 1 then
      if s.inMsg then
        if c.crc then
          if s.rd.length ≤ 2 then some s
          else if Crc.crc16 0 s.rd ≠ 0 then some s
          else some { s with rd := s.rd.take (s.rd.length - 2), complete := true, inMsg := true }
        else some { s with complete := true, inMsg := true }
      else some { s with inMsg := true }
    else some { s with inMsg := false }
  else if b = 254 then some { s with inCmd := true }
  else store c s b

/-- The loop `while (buflen && !in_msg_complete)`, :273: new state and bytes used. -/
def rxLoop (c : Cfg) (s : Rx) : List UInt8 → Option (Rx × Nat)
  | [] => some (s, 0)
  | b :: rest =>
    if s.complete then some (s, 0)
    else do
      let s ← rxByte c s b
      let (s, n) ← rxLoop c s rest
      some (s, n + 1)

/-- First part of `msgdelim_ll_write`, :269-323. -/
def rxPart (c : Cfg) (s : Rx) (buf : List UInt8) : Option (Rx × Nat) :=
  if s.complete || buf.isEmpty then some (s, 0) else rxLoop c s buf

/-- `msgdelim_ll_write`, :257-348, with an upper layer that takes `acc` bytes of what it is
offered: new state, bytes used, what the upper layer took (`none`: not called) and whether
that completed the message. -/
def llWrite (c : Cfg) (s : Rx) (buf : List UInt8) (acc : Nat) :
    Option (Rx × Nat × Option (List UInt8 × Bool)) := do
  let (s, n) ← rxPart c s buf
  if s.complete then
    if acc ≥ s.rd.length then
      some ({ s with complete := false, rd := [] }, n, some (s.rd, true))
    else some ({ s with rd := s.rd.drop acc }, n, some (s.rd.take acc, false))
  else some (s, n, none)

/-! ### Sender -/

/-- Send fields, :88-94. `wd` is `write_data[0 .. write_data_len]`. -/
structure Tx where
  wd : List UInt8
  wpos : Nat
  upos : Nat
  complete : Bool
deriving DecidableEq, Repr

/-- State after `gensio_msgdelim_filter_raw_alloc`, :504-507. -/
def Tx.init : Tx := { wd := [254, 1], wpos := 0, upos := 0, complete := false }

/-- `msgdelim_filter_cleanup`, :356-369 (the send part). -/
def Tx.cleanup (_ : Tx) : Tx := { wd := [], wpos := 0, upos := 0, complete := false }

/-- `mfilter->write_data[mfilter->write_data_len++] = byte`. -/
def put (c : Cfg) (w : List UInt8) (b : UInt8) : Option (List UInt8) :=
  if w.length < c.wcap then some (w ++ [b]) else none

/-- `msgdelim_add_wrbyte`, :170-175. -/
def addByte (c : Cfg) (w : List UInt8) (b : UInt8) : Option (List UInt8) := do
  let w ← put c w b
  if b = 254 then put c w 0 else some w

/-- The loops over the user's data, :195-213: `none` in the inner result is GE_TOOBIG. -/
def addData (c : Cfg) (w : List UInt8) (upos : Nat) : List UInt8 → Option (Option (List UInt8 × Nat))
  | [] => some (some (w, upos))
  | b :: bs =>
    if upos ≥ c.maxWrite then some none
    else do
      let w ← addByte c w b
      addData c w (upos + 1) bs

/-- What a write reports. -/
inductive WRes where
  | ok (count : Nat)
  | tooBig
deriving DecidableEq, Repr

/-- The part of `msgdelim_ul_write` that completes the message, :217-226. -/
def addEnd (c : Cfg) (w data : List UInt8) : Option (List UInt8) := do
  let w ← if c.crc then addByte c w (Crc.crc16 0 data >>> 8).toUInt8 else some w
  let w ← if c.crc then addByte c w (Crc.crc16 0 data &&& 0xff).toUInt8 else some w
  let w ← put c w 254
  put c w 1

/-- The part of `msgdelim_ul_write` that offers the message to the lower layer, which takes
`acc` bytes without error, :228-250. -/
def flush (t : Tx) (acc : Nat) : Tx × List UInt8 :=
  if t.complete then
    let rest := t.wd.drop t.wpos
    if acc ≥ rest.length then ({ wd := [], wpos := 0, upos := 0, complete := false }, rest)
    else ({ t with wpos := t.wpos + acc }, rest.take acc)
  else (t, [])

/-- `msgdelim_ul_write`, :177-255, where the lower layer takes `acc` bytes without error: new
state, the result, the bytes given to the lower layer.  `data` is the concatenation of the
scatter list (the loops run over it in order). -/
def ulWrite (c : Cfg) (t : Tx) (data : List UInt8) (acc : Nat) : Option (Tx × WRes × List UInt8) :=
  if t.complete then
    let r := flush t acc
    some (r.1, .ok 0, r.2)
  else do
    let r ← addData c t.wd t.upos data
    match r with
    | none => some ({ t with wd := [], wpos := 0, upos := 0 }, .tooBig, [])
    | some (w, upos) =>
      if upos > 0 then do
        let w ← addEnd c w data
        let r := flush { t with wd := w, upos := upos, complete := true } acc
        some (r.1, .ok data.length, r.2)
      else some ({ t with wd := w, upos := upos }, .ok data.length, [])

end Gensio.Msgdelim
