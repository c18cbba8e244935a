# Formal model of gensio: design

Target: the pinned gensio source in `/repo` (C).  Model and proofs: Lean 4 under
`/verif/lean/Verif/`.  Layout:

* `Verif/Model/<X>.lean` – the model of one C unit.  Every definition carries a comment
  with the file and lines of `/repo` it models and what was simplified.
* `Verif/Lemmas/<X>.lean` – helper lemmas (no claims).
* `Verif/Props/<X>.lean` – an independent specification (small, readable from the
  English text), the property theorems and next to each an example that meets the
  hypotheses in a non-trivial way.  Small units keep lemmas inside the Props file, in
  a section above the claims.

Modelling conventions

* Buffers are `List UInt8` (or `List`/functions of `Nat`); index arithmetic is on `Nat`
  with explicit moduli where C wraps.  A read or write outside of allocated memory, a
  failed `assert`, a division by zero is a *distinct outcome* (`none`/`.ub`), never a
  default value.  Safety theorems say this outcome is unreachable.
* Callbacks into other layers (upper handler, lower writer) are parameters: the amount
  taken by a sink at each call is universally quantified (an oracle list or a function).
* Where the C code violates the property as stated in `properties.jsonl` we prove the
  negation on the model by a concrete witness (`..._violated` theorem) and prove the
  strongest true version (`..._partial`), and say so below.

Trusted base: the Lean 4.33 kernel; the axioms `propext`, `Classical.choice`,
`Quot.sound` (listed per theorem at the end of this file); the faithfulness of the
hand-written models to the C text (the cited lines).  No C compiler, OS, allocator or
threading behaviour is modelled unless said otherwise (each locked region is one atomic step).

## Plan per property

| id | what is modelled | how proved |
|----|------------------|------------|
| C01, C02 | `lib/circbuf.c` all functions on {pos,size,bufsize,buf}; memory access checked | invariant + refinement to a byte queue, induction over op lists |
| C03 | `lib/buffer.c` output / outchar / write | refinement to queue; returned count is wrong after a wrap (lines of `gensio_buffer_output`): violated + partial |
| C04 | codecs `utils.c` 823-852 on BitVec | round trip, big-endian value |
| C05–C07 | `gensio_str_to_argv_endchar`, `gettok`, `gensio_quote_string`, `strtobuf` char by char | round trip by induction on the string; hex escapes with letters: violated + partial |
| C08 | intrusive list as pointer map (next/prev functions) | heap-with-separation invariant "cyclic list", refinement to `List` |
| C09 | cntstr as heap of refcounted objects | invariant: count = number of holders |
| C10 | `heap.h` pointer heap, all functions | abstraction to a complete binary tree; invariant + refinement to multiset |
| C11, C12 | CRC tables and loops on BitVec 16 | table = bitwise step (finite check, lifted), linearity + burst argument by induction |
| C13, C15 | `process_telnet_xmit`, `process_telnet_data`, command buffer | induction over stream and chunk list; invariant cmd_pos ≤ bound |
| C14 | `handle_telnet_cmd`, `telnet_send_option` | potential function on two-party system |
| C16–C18 | msgdelim ul_write/ll_write as byte machines | round trip by induction; overflow and no-resync: violated + partial |
| C19, C20 | KISS | round trip; truncation: violated + partial |
| C21–C23 | HDLC encoder/decoder bit machines | round trip by induction over bits; OOB: violated + partial |
| C24 | xlt | refinement; over-report: violated + partial |
| C25–C27 | relpkt two-party with lossy duplicating channel, ghost unbounded sequence numbers | inductive invariant; eom and assert: violated + partial |
| C28–C30 | base state machine with abstract filter and lower layer | trace invariants, induction over events |
| C31–C35 | mux id allocator, flow control counters, ring buffers, framing, header check | invariants; violations by witness |
| C36, C37 | ratelimit, chardelay | trace invariants |
| C38, C39 | time functions on Int | arithmetic; violations by witness |
| C40, C41 | sync I/O waiter queues | refinement; violation by witness |
| C42–C45 | convcode | induction over symbols (Viterbi optimality), size arithmetic |
| C46, C47 | AX.25 addresses | round trip; violations by witness |
| C48, C49 | UUCP lock protocol as interleaving of file-system steps | inductive invariant for the no-stale case; violations by witness schedule |
| C50 | `gensio_time_to_timeval` and friends, `os_unix.c` 63-87 | arithmetic; violation by witness |
| C51 | telnet write side: user data with interleaved command queue | induction over write calls; violations by witness |
| C52, C53 | KISS receiver after noise; set-up of a TNC | induction; violations for all configurations |
| C54–C56 | HDLC working message table, sender, received bits | table invariant over every bit; exactly-once refinement; violations |
| C57 | xlt table construction from the configuration | case analysis over the arguments |
| C58 | chardelay send-on matcher | soundness by induction; missed overlap by witness |
| C59–C61 | AX.25 subaddress and address list text | induction over the text; violations for all such texts |
| C62 | named escapes | case analysis in any context |
| C63–C65 | convolutional encoder, chunking, block functions | refinement to the convolution over GF(2) |
| C66, C67 | relpkt acknowledgements and protocol errors | invariant of the two-party system; violations by run |
| C68–C73 | mux isolation, write wake-up, window return, deadlock, last close, hostile peer | invariants over all operation sequences; violations by run |
| C74–C79, C81 | selector timers, done handlers, runners and waiting threads as interleaved lock sections over the pointer heap | inductive invariants; counting; violations by schedule |
| C80, C83 | descriptor handlers and the epoll set, interleaved lock sections | inductive invariants; violations by schedule |
| C82 | `gensio_acc_accept_s` with waiting threads | invariant over all interleavings; violations by schedule |
| C84–C87 | `ll_fd.c`, interleaved lock sections with threads in callbacks | inductive invariant by counting threads; violations by schedule |
| C88–C91 | `gensio.c` parameter values (`gensio_pparm_*`, `gensio_str_to_time`) on byte lists | grammar of C integers and of times against the scanners, induction on the text |
| C92–C98 | `gensio_certauth.c` (the whole filter) with OpenSSL and the application as answers | invariants over runs with a trace of what happened; parser as rounds, composed by induction |
| C99–C103 | `gensio_ax25.c` one channel: every event and frame, with queues, windows and memory | invariant over all events; violations by run |
| C104, C105 | `gensio_ax25.c` two channels over a channel that loses frames | invariant relating both ends and the frames between; violations by run |
| C106, C107 | `gensio_ax25.c` frames as bytes, reports | exhaustive finite facts for the control field, C46 and C12 for the rest |
| C108–C111 | `gensio_ax25.c` T1, T2, T3 and their OS timer, T1 computation, retries | invariants over all interleavings; violations for all times by parametric runs |
| C112–C118 | `gensio_keepopen.c` | lock sections as steps; one invariant over all clean runs, an automaton of what the user may be told, ranking functions for progress |
| C119–C124 | `acc.c`, `acc_gensio.c`, sockets of `gensio_net.c` | lock sections as steps; counting invariant over all runs, an automaton of what the user may be told; induction over any order of reports for the sockets |
| C125–C135 | `gensio_dgram.c` | lock sections as steps; reference, read and report counts over all runs; a per connection invariant over careful runs gives freedom from faults, addresses and ends of closes; states that are never left; pure models of the data and the controls |
| C136–C148 | `sergensio_telnet.c` | RFC 2217 client and server as a request queue with counts over all runs and a waiting argument for time-outs; settings carried through the telnet encoder and parser of C13; write buffer invariant; urgent data by induction over the pieces |
| C149–C152 | `gensio_echo.c` | the operation as a thread stopped in callbacks, one invariant over all runs for references, data, reports and wake-ups |
| C153–C159 | `gensio_file.c` | any number of operations at once, one invariant for references, reports and wake-ups; data and descriptors under a condition on the run |
| C160–C166 | `net_addrinfo.c`, `gensio_addr_get_data` | bit lemmas for the masks; an invariant of counts for shared lists; the restarts of the duplicate search as recursion with a measure |
| C167–C171 | `gensio_conacc.c` with the states of `acc.c` it meets | an invariant indexed by the place of the one connection; steps of threads between callbacks as single steps; a count of references; progress by runs without the user |
| C172–C178 | `gensio.c` :2449-2616, :2695-3246 (defaults) | refinement of a map from names to values; a count of blocks per owner, with what was lost as a ghost; failures of allocations as part of the call |
| C179–C186 | `gensio_ssl.c` :65-128, :216-791, :990-1017, :1096-1158 (TLS filter) | invariant over all sequences of calls with notes of the bytes taken, sent, fetched and given; answers of OpenSSL, BIO, lower layer and user as part of the call |
| C187–C189 | `ll_2gensio.c` :18-253 (lower layer over two children) | enumeration of the states of one open and close as an inductive invariant; children as automata that report once what they accepted |
| C190–C194 | `gensio_perf.c` :19-519 (throughput filter), the write side of `gensio_base.c` it depends on | one invariant over all sessions with notes of the reports, texts and bytes; handlers of writes and reads as open intervals |
| C195–C198 | `gensio_trace.c` :62-362 (trace filter), hex dump of `gensio.c` :3707-3758 | text of the dump given by the lines of the whole data, a reader of it; the trace given by a list of entries |
| C199–C202 | `gensio_script.c` :26-466 (script filter) | sections between lock and unlock as steps, the handler of a write as open interval; one invariant over sessions, notes of the streams kept outside the filter |
| C203–C207 | `gensio_stdio.c` :210-621, :684-756, :817-872 (reading side of a channel) | stretches of code under the lock as steps, callbacks of the handler and of the deferred operation as open intervals; one invariant, notes of the stream kept outside; a second invariant for progress |
| C208–C210 | `gensio_stdio.c` :197-207, :299-513, :684-872, :947-974 (life of both channels of a gensio that runs a program) | stretches of code under the lock as steps, `close_done` as an open interval; one invariant with the references counted, a measure for the progress of closes, the exit code followed through `check_waitpid` |
| C211 | `gensio_dummy.c` :67-194 | steps are lock sections, callbacks are open intervals; what is due and reported is counted against the calls that were accepted |
| C212, C213 | `gensio_stdio.c` :1286-1481 (stdio accepter), :394-476, :817-872 (close and free of its gensio) | the same, with references that nothing will drop counted in a field of their own (not in the code), so that leaks are exact |
| C214 | `sergensio_serialdev.c` :694-793 (modem state), with open and close | steps are the stretches of code between which other threads may run; the timer runs or not |
| C215 | `gensio.c` :604-733 (asynchronous controls and waiting for them) | one caller at a time; writes behind the buffer and into a frame that is gone are `none` |
| C216, C217 | `sergensio_serialdev.c` :241-405 (requests), :935-1011 (close and drain), :1186-1208 (free) | requests are numbers, what the device says is left out; the drain counts looks, one every 10 ms |
| C218 | `sergensio_serialdev.c` :24-46, :174-225, :1516-1593 (options) | on the models of the C library and of parameters; messages are left out |
| C219 | `os_osops.c` :3914-4150 (memory checker) | memory by block and offset; threads, the places of calls and the abort are left out |
| C220 | `errtrig.c` :16-94 | calls are single steps, under their lock |

## Status, findings and simplifications per unit

Each unit's simplifications stand at the head of its `Model` file; the most important are repeated here together
with what was found wrong in the C code.  "Theorem" marks findings that are proved in Lean as a `_violated` theorem;
the others were noticed while reading and are not formalised.

### Buffers, lists, strings, times (C01–C11, C38, C39, C50, C62)
* `gensiods`/`unsigned int` are `Nat` where the sums are bounded by twice a buffer size; allocation succeeds.
* `buffer.c`: count returned by `gensio_buffer_output` is wrong after a wrap (theorem).
* `utils.c` scanner: hex escapes with letters give a wrong byte (theorem).  `gensio_argv_nappend` family not modelled.
* Counted strings: the count is an `unsigned int` and wraps after 2^32 references (theorem).
* `heap.h`: modelled on the pointer level.  Adding an entry twice is not detected; the callers guard with `in_heap`.
* Times: `gensio_time_add_nsecs` can leave nsecs = 10^9; `gensio_time_to_nsecs` is wrong for every time with a nanosecond
  part; negative milliseconds give ill-formed times; `tv_usec` can be 1000000 (theorems).
* The intrusive list model has NULL-pointer faults and asserts as `none`; it is proved to be a sequence for well-formed lists.

### Telnet (C13–C15, C51)
* Modelled: `lib/telnet.c` complete, and `telnet_ul_write` of `sergensio_telnet.c`.  The rest of that file is below (C136–C148).
* An acknowledgement is answered by the RFC 2217 server because it sends DO 44 without setting `sent_do` (theorem).
* A full command queue truncates a command; `td->error` is set and never read (theorem).  A scatter/gather entry is skipped
  when `max_write_size` < 2 (theorem).

### Msgdelim (C16–C18)
* Theorems: heap overflow by two bytes; never resynchronises after a bad CRC; the initial separator is lost after GE_TOOBIG
  or on reopen.  Not formalised: cleanup does not reset `in_cmd`.

### KISS (C19, C20, C52, C53)
* Theorems: truncation reported as accepted; empty writes overrun the buffer; a frame of maximal size is dropped by an equal
  receiver; start data is sent without frame marks; all-ports start data is empty.
* Not formalised: `startdata_len` is an unsigned char and wraps; `kfilter->setupstr` is never set from the configuration
  (NULL would be written, :210-211); the d710 option sets it to a literal that cleanup frees; `setup_delay` is never copied;
  ranges leave out their upper end (:496); numbers are truncated after `strtoul`; a bad packet still stores bytes.

### HDLC (C21–C23, C54–C56)
* Theorems: `curr_delivermsg` never wraps, so the ninth frame is outside the array; the write buffer ignores preamble and
  postamble; an empty write resends a stale frame and underflows; the received bit count is ignored; an uncertain bit is
  inverted with one working message.
* Not formalised: with a full table the message with the *smallest* uncertainty is replaced (opposite of the comment);
  frames beyond eight pending are dropped silently; clearing other working messages keeps their `curr_byte`; a send error
  blocks receiving.

### Xlt, ratelimit, chardelay (C24, C36, C37, C57, C58)
* Theorems: xlt reports more than it took while bytes are held, and keeps bytes on an error; replacement values unchecked;
  `crlf=false` acts as true.  Ratelimit: reopening resets the limit; `xmit_len=0` never sends.  Chardelay: with any send-on
  string the scan reads past the caller's data; overlapping matches are missed.
* Timer of the operating system is assumed not to fire early.  Not formalised: xlt/chardelay cleanup does not clear buffers;
  chardelay does not restart its timer after an error.

### AX.25 addresses (C46, C47, C59–C61)
* Theorems: reserved bits not encoded; inner spaces accepted; TNC port never stored; ":h" with number 0 refused; ":c"/":r"
  refused; "ABC-", "-5" and overflowing numbers accepted; stale bytes after parsing a short call sign; lists refused.
* Not formalised: `ax25_chan_control` passes an uninitialised struct (gensio_ax25.c:4871 and others); `ax25_scan_laddrs`
  parses `str` instead of `addrstr` (:5141).  The AX.25 protocol itself is not modelled.

### Convolutional code (C42–C45, C63–C65)
* Full trellis only; tail biting, the reduced trellis and the SIMD variant are not modelled.
* Theorems: decoded size wrong, refused, or division by zero for some puncturing patterns; wraps for short input; the decoder
  does not restrict itself to zero tails; punctured hard decisions count missing bits as zeros; the fill loop at the end can
  run for ever or invent a symbol; `curr_readmsg` never wraps; the block decoder needs a zeroed array.
* Not formalised: reduced trellis reports a wrong metric (:1700-1705); soft fill uses the constant 50; auxdata `nbits` never
  reaches the filter; a write error blocks receiving; `alloc_convcode` NULL unchecked; sizes wrap at 2^32.

### Relpkt (C25–C27, C66, C67)
* One session; two ends joined by a network that loses, duplicates and (within the stated bounds) reorders.
* Theorems: window check off by one; message mark never cleared in a slot and lost truncation; a backwards RESEND fails an
  assertion; with 255 packets outstanding every acknowledgement is refused; correct ends can see a protocol error.
* Not formalised: CLOSE is never retransmitted; `max_packets` 0 and 256; the default mode string is swapped (:1325-1328);
  reopening keeps old values.

### Mux (C31–C35, C68–C73)
* Theorems: duplicate channel numbers after a wrap; window check wraps with a long service string; out-of-band data with end
  mark gives an empty callback; three ways to break framing (one lets the peer abort the process); short headers completed
  from the previous message; refusals take down the mux or keep the child open for ever; a partial control write is not
  continued; service bytes never acknowledged.
* Not formalised: `max_read_size` = 128 always refused by the peer; `muxc_reinit` leaves `wr_ready`, errcode, sglen; failed
  `muxc_open` underflows `opencount`; `muxc_alloc_channel` returns with the lock held (:1615-1620); `max_write_size` > 65538
  truncates lengths; `mux_shutdown_channels` and freeing are not modelled.

### Selector (C74–C79, C81)
* Steps are lock sections of `timer_lock`; waiting for descriptors may end at any time; descriptors are not modelled here.
* Theorems: stop or free with a done handler pending loses it; stop_with_done wakes nobody; a restart inside a handler is
  queued without a wake; stop_with_done in the handler of a restarted timer refuses; `add_timeval` is wrong when the
  microseconds add up to exactly a million.
* Not formalised: a handler restarting its timer with a time not in the future keeps `process_timers` looping; failed
  allocation in `sel_alloc_selector_thread` leaks or frees NULL; `i_sel_wake_first` gives up if the first waiter has no
  `send_sig`.

### Descriptor handlers (C80, C83)
* One descriptor, epoll only (not kevent or select), other descriptors only through `fd_del_count`; all three handlers given.
* Theorems: a handler that clears or replaces its own registration and sets a new one loses the new one
  (`fdc->state = NULL` in `handle_selector_call`); replacing a registration while its handler runs uses released memory,
  because the end of `sel_set_fd_handlers` works without the lock; after a hang up writing is never reported; replacing
  handlers after a hang up makes `epoll_ctl` fail and the program abort.

### Descriptor layer (C84–C87)
* Modelled: all of `ll_fd.c` but `fd_write`, `fd_control`, `fd_acontrol`, `fd_disable` and auxiliary data.  The functions
  `ops->...` are represented by their results, the selector by what C80 and C83 say of it.
* Theorems: an open from the callback that reports a failed open is lost, since the deferred close of the failed one then sets
  the state to closed; a close during an open is never reported when `check_close` needs time; `retry_open` returning 0
  leaves the open unreported; an assertion fails when reading was enabled during an open that is closed; an open and close on
  another thread while the close callback runs is lost (`deferred_op_pending` is cleared after the flags are looked at);
  disabling the write callback during an open disarms the wait for the connection; an exception handled after both callbacks
  were disabled leads to a NULL descriptor; out of band data can be delivered before the open is reported; a callback enabled
  before an immediately successful open is never armed; a second open in the closed state with a close outstanding leaks the
  descriptor.
* The positive theorems hold under the rules of `fair` in the model, one for each of these.
* Not formalised: `start_timer` is called inside `assert` (nothing is started with NDEBUG); `fd_write` reads the
  descriptor without the lock.

### Parameter values (C88–C91)
* Modelled: `gensio_pparm_value` to `gensio_pparm_time` (not floats, `argv`, `bufv`, `addrs_noport`), `gensio_str_to_time`,
  `strtol`/`strtoul` of C in the C locale with 64 bit `long`, the loop that reads `drain_timeout`, integer defaults as text.
* Theorems: negative sizes become huge ones and too large ones saturate, since the result of `strtoul` is not checked;
  `gensio_pparm_int` gives a message for a number out of range but goes on and returns 1 (the `return -1` is missing), so the
  truncated value is used when it is the last parameter; permissions and default values are truncated to 32 bits; times with
  negative small units give negative nanoseconds, large ones overflow; `gensio_pparm_addrs` returns success with a freed
  address when a required port is missing (no caller in the tree requires one).
* Seen, not modelled: floats accept anything after the multiplier (`1kxyz`).

### Authentication filter (C92–C98)
* Modelled: `lib/gensio_certauth.c` filter calls of client and server: input, elements, every state of the handshake, output,
  the check at the end, cleanup.  OpenSSL is a set of functions; the application is its answers.  Not modelled: the control
  function, allocation failures, X509 stores, times, data of the user after the handshake.
* Findings, all as theorems: a client may send the RESULT element itself and is authenticated with nothing else;
  a challenge response is accepted before there is a challenge, against 32 zeros; a required password may be empty or wrong
  after a good certificate; a refused second factor is accepted after a good password, and a refused password before a good
  second factor; a user rejected by the application is let in with a password if one is required; data that ends just after an
  element is over-read by a byte and `buflen` wraps; an error is forgotten when a certificate follows; a peer that sends early
  while the hello is partly written makes the length of the output negative; no filter can be opened twice;
  the password is given with length 100.
* Seen, not modelled: the POSTCERT event is raised even when the signature was wrong, and `tools/gtlsshd.c:2216` takes it as
  a sign of authentication by certificate; AUTHREJECT of POSTCERT is ignored once a result is set; a certificate that does not
  fit in the write buffer makes OpenSSL reallocate inside it; AUTH_BEGIN success with `require-password` asks for a dummy
  password and then fails with DATAMISSING; `gensio_event.3` says that 2FA_VERIFY is not called when PASSWORD_VERIFY is.

### AX.25 data link (C99–C111)
* Modelled (`Model/Ax25.lean`): `struct ax25_chan` from open or accept to close, every frame handler, the sending loop for one
  channel, writes, the read callback and the timeouts; a timeout can happen at any moment.  Not modelled: the base's
  lists and other channels, open and close callbacks.
* Theorems: several pieces beyond the packet size are copied past the buffer; raw and UI data beyond the maximum too; XID
  parameter 6 (receive packet size) sets the window (256 bytes makes it 0, other sizes larger than the queue: assertion); a
  fallback to modulo 8 makes a window of 2 for a queue of 1; a read callback that fails after the close removes the channel
  from its list twice; the packet size is never negotiated; the window can reach the modulus.
* Two stations (`Model/Ax25Pair.lean`): a channel opened at one, the channel made for its SABM at the other, and the frames between, lost at
  any moment but not repeated, changed or reordered; the new-channel callback does nothing before the UA is queued.  Theorems: delivery in order and
  once; a second UA restarts the numbering with `ign_emb_ua` off; a second UA ends the wait of a close for its data; data stored
  when a DISC arrives is not delivered.
* Frames as bytes (`Model/Ax25Wire.lean`): encoding and reading; the lookup of the channel is its result.  Theorems: round trip; a UI frame without a
  PID is reported with 4294967295 bytes.
* Timers (`Model/Ax25Timer.lean`): T1, T2, T3, the OS timer with the semantics of C74, the handler in four lock sections with anything in
  between, references of the timer; T1 computation in 32 bit arithmetic.  Theorems: T2 and T3 lose the OS timer when T1 is stopped;
  lost references; T1 grows by an eighth for each frame received while nothing is sent, shrinks to 0 with fast answers, and is 0 or
  undefined after many retries; `retries=0` never gives up.
* Not formalised: `extended=2` cannot be reached because `set_extended` takes a bool; `extended=3` skips all validation
  (:5184-:5187); "tnc:N" never matches (:4478); a DM queued before the channel leaves the list is
  never sent; a busy station answers a poll with a command (:3285); an error of `ax25_chan_alloc` frees the address of the
  caller (:5466).

### Keepopen (C112–C118)
* Modelled (`Model/Keepopen.lean`): all functions of `gensio_keepopen.c` except the options; steps are lock sections, so that anything can
  happen during a callback or a log.  The child is an automaton with arbitrary answers.
* Theorems: freeing an open gensio deadlocks (POSIX) or fails an assertion (recursive lock); so does freeing one that closes or whose
  child is closing, closing one whose child then reports its open, closing during the log of an open, disabling while the timer runs; use
  of freed memory after a free in the open callback; a close in the callback of an open that failed at once is lost; a refused close is
  reported; a NULL count is written through; the wrong error is logged.
* Not formalised: the uses of `ndata->io` after the last unlock by the user's own thread (:401); a child that stays open after it refused to close.

### Accepters (C119–C124)
* Modelled (`Model/Acc.lean`): the life cycle of `acc.c:166-374` and `acc.c:444-494`, the lower halves of `acc_gensio.c:45-80` and
  `gensio_net.c:1079-1141` as automata, and the array of sockets of `gensio_net.c`.  Not modelled: connecting from an accepter, the
  options, opening the sockets, `gensna_child_event`.
* Theorems: `call_shutdown_done` is never cleared, so after a restart the next callback closes the upper half only (then a free leaves
  sockets open whose handlers use freed memory), or reports a shutdown early; a refused shutdown is reported after the free; in
  `acc_gensio.c` the callback pointer is overwritten with NULL and called; a refused enable blocks all later ones; after a shutdown the
  address, the port and a disable use a NULL pointer.
* Not formalised: `acc.c:470-494` logs and frees the connection with the lock held.

### Datagram gensios (C125–C135)
* Modelled (`Model/Dgram.lean`): the reference counts, the read and write counts, deferred operations, the read and write handlers,
  opens, closes, frees, shutdowns, enables and the socket handlers of `gensio_dgram.c:239-1037` and `:1367-1762`, for any number of
  connections and sockets; `Model/DgramData.lean`: what a read callback is given and three controls.  Not modelled: making the
  addresses and the sockets, the strings of the auxiliary data, `udpn_write`, `udpna_disable`, Unix permissions.
* "Careful" (`Calm`) runs leave out what leads to the faults that are counterexamples; `Prompt` leaves out closes in the two callbacks that
  lose them.
* Theorems: reading stops for ever when a datagram comes while another one waits; a part of a datagram that is not taken is replaced by its
  beginning, and the fifth call overflows `auxmem`; faults for a write enable while opening, an open in a close callback, a free in an
  enable callback; lost closes, shutdowns, opens, references and connections; with two sockets data of a wrong address; no restart;
  inverted and wrong controls; only the first writer is called.
* Not formalised: `udpn_write` leaks an address on `GE_INVAL` (:578); `udpn_disable` of a closed gensio fails a list assertion.

### RFC 2217, RFC 1073 and the telnet filter (C136–C148)
* Modelled: all controls, the request queue and its timer, both command handlers, window sizes, modes; for the filter the
  write side with errors, setup and cleanup, the read side with urgent data, and allocation.  Not modelled: locks (each
  operation is one step), the accepter, and the timer of the server.
* Strings are byte lists without their NUL; `strtoul` is modelled for base 0 on ASCII text, cut to `int` as the code does.
* Theorems: see the notes of C136–C148.  Worth noting: requests are lost by free and by close; a time-out hides the requests
  behind it; a late answer completes the wrong request; asking for a mask clears it; 255 in a window size corrupts the stream;
  the DATA MARK is delivered as data or missed; double free when the raw filter allocation fails; a reopened filter without
  RFC 2217 can be stuck.
* Not formalised: `basen_start_timer_op` and `output_ready` touch the base's reference count and `ll_can_write` without its
  lock; `out_telnet_cmd` is written by `process_telnet_data` without the lock; WILL NAWS from a server clears
  `rfc1073_enabled`; `stela_alloc_gensio` does not pass on the default read size; `timer_start_pending` is never cleared.

### Echo and file gensios (C149–C159)

* Modelled: `lib/gensio_echo.c` and the Unix branch of `lib/gensio_file.c` from `…_write` to `…_free`.  A section of code under the
  lock is a step; a callback is a place where other calls come between.  In the file gensio the flag `deferred_op_pending` is cleared
  when the operation starts, so a second one may run while the first is in a callback; the model has any number of them.
* Not modelled: `…_disable`, `…_control`, parameters, allocation failures, the `USE_FILE_STDIO` branch.  A completion function is
  taken to be read when the lock is released, though the code reads it just after.
* Found: an open reported with the error of the one before; data and end of data not delivered after an error of a callback; data of
  one open seen in the next (both); bytes delivered twice and dropped with two threads; a file that cannot be read again after a reopen;
  a wrong count for dropped writes; descriptors lost by a failed open and by free; callbacks after free; `memcpy` with overlap; a close
  reported during a read callback.

### Addresses (C160–C166)
* Modelled: `lib/net_addrinfo.c` but for `addr_to_str`, name lookup itself, and the reading of strings other than the mask.  A
  chain of `struct addrinfo` is a list; a deleted first cell is counted so that pointers to it are known to be bad.
* Found (theorems): a concatenation of addresses not from `getaddrinfo` frees memory its arguments still use, or shortens an
  argument; an allocation in `gensio_addrinfo_list_dup` is not checked, and a failed copy of a receive address frees the original;
  removing duplicates ignores masks and scopes; "/0" covers one address; masks wrap at 256 and 2^32; a path is not equal to itself
  when made in two ways; `gensio_addr_get_data` calls NULL for AX.25.
* Noticed only: `gensio_refcount_init` failing leaves an unusable count; an item deleted by `gensio_addr_dedup` keeps its count;
  `freeaddrinfo(NULL)` after an error in `gensio_addr_addrinfo_cat`; `~0 << n` is undefined in C.

### The accepter that makes connections (C167–C171)

* A second close of a connection is not refused: `in_close` is never set and `ndata->nadata` never cleared
  (`gensio_conacc.c:517-550`), so the close of the child fails and `conaccn_finish_close` takes the connection out again.  The
  reference of the accepter is dropped twice and the accepter freed in use (`C167_double_close_violated`), or a second child is
  opened while the first is closing (`C170_two_violated`).
* `conaccn_disable` (:575-596) starts the next connection twice, once in `start_retry` or `conacc_start` and again after.
* `case CONACCNA_READY` of `conaccna_set_accept_callback_enable` (:1037-1039) does not look at `enabled`: enabling an accepter
  that has a connection disables it.
* A failed enable sets `CONACCNA_SHUTDOWN` while the upper half stays open (:1010-1018): neither shutdown nor startup work.
* Shutdown or disable while `conaccn_open_done` is in a callback, or when the timer went off and its handler has not the lock,
  lead to a failed assertion or a deadlock (`C167_shutdown_in_open_violated`, `C167_shutdown_timer_violated`), as do an enable
  followed by a shutdown while the timer runs, and a disable followed by an enable without callbacks while opening.
* `conaccn_shutdown_close_done` (:888-911) frees the connection before it takes the lock and clears the pointer to it.
* The theorems hold for users that do none of this (`careful` in `Verif/Lemmas/Conacc.lean`).

### Default values (C172–C178)
- `gensio_get_default` for data allocates `intval` bytes and copies `intval + 1` (`gensio.c` :3073-3078): one byte behind the block is
  written, always (`C172_data_violated`).
- `gensio_get_defaultaddr` returns 1 if it found an address (:3206).  The callers (`gensio_net.c` :466-472, `gensio_dgram.c`
  :2115-2121, `gensio_sctp.c` :442-448) take everything but 0 and `GE_NOTSUP` for an error, and 1 is `GE_NOMEM`: a default local address makes
  all these gensios fail (`C178_addr_violated`).
- `gensio_reset_defaults` removes the value that `gensio_default_init` set for UDP (`C174_udp_violated`).
- Numbers given as numbers are not compared with the range; "7" is accepted for a bool and stays 7; three defaults have no range in the
  table (0 to 0) and accept no text but that of 0 (`C175_…_violated`).
- `gensio_reset_default` frees the values of classes for strings only (:2703); `gensio_del_default` does not free `def.strval`
  (:3159-3162); `gensio_cleanup_mem` does not free added defaults (`C176_…_violated`).
- If the first call fails for want of memory, `gensio_def_init_rv` keeps the error and all calls fail until `gensio_cleanup_mem`.

### TLS filter (C179–C186)
* OpenSSL, its memory BIO, the lower layer and the user are their answers; `ssl_ll_write` is cut where it calls the user without the
  lock.  Not modelled: setup of keys and the controls other than the user name, logging, `ssl_setup`.
* Assumed about OpenSSL (not proved, `handshake` in the model): a failed verification ends the handshake only with
  `SSL_VERIFY_PEER`; otherwise `SSL_get_verify_result` is the error of the context, which is `X509_V_OK` at first.
* Theorems: an error of the lower layer is forgotten if `want_write` is set, with loss of data on both sides, and the next
  `SSL_write` then has other bytes than OpenSSL waits for; a successful `SSL_peek` closes the connection with `GE_NOMEM`; the time limit
  of a second open is that of the first; a client ignores the refusal of a certificate by its user and the result of its own
  store, and is marked authenticated; a refusal after the handshake with `allow_authfail` leaves the mark; the certificate is freed
  too often if the handshake fails; the user name keeps the pointer of the caller and loses the copy.
* Not formalised: the CERT_AUTH control with an empty string reads before the buffer; early returns of
  `gensio_ssl_filter_config` leak; repeated CA, key and cert arguments leak; `username` is never freed.

### Two children (C187–C189)

- `child_open_close_handler` and `child_open_handler` set the state to `LL_2GENSIO_CLOSED` and then test it for `LL_2GENSIO_OPEN_CLOSE`
  (:118-120, :160-170): the close of a gensio that is being opened is never reported; the open is reported instead, with success if both
  children opened.
- `child_close` never leaves `LL_2GENSIO_OPEN` (:214-253): after one open and close, each further open gets `GE_INUSE` and a further close ends
  in the assertion on the result of `gensio_close`.
- `open_err`, `in_opened` and `out_opened` are never cleared: after one failed open no later one succeeds, and one may hang on the close of
  a child that is closed already.
- Not modelled: writes, reads and controls, which go to one child unchanged.

### Throughput filter (C190–C194)

- `gensio_base.c` asks the lower layer to call again only if a write was not taken whole (:574-585, :622-639): over a lower layer that takes
  everything, two buffers are written at first and then one with each tick of a second, unless the upper layer asks to write or something is
  read.  Theorem.
- An error while a periodic report waits loses the final report (`perf_handle_end_check` returns without it and is not called again).
  Theorem for all that may follow.
- A tick between the final report and the end adds a periodic report after the total.  Theorem.
- `(nsecs + 500000) / 1000000` prints 1000 behind the point for the last half millisecond of a second.  Theorem.
- `perf_ll_write_pending` asks for calls that do nothing while input is awaited; `writebuf=0` never writes.  Theorems.
- Assumed: the text of a report has 1 to 1023 characters (the numbers printed keep it below 300).

### Trace filter (C195–C198)

- With `b4dir` and `block` for writes `trace_ul_write` adds the lengths twice to `count` (:170-171 and :179-180): each write reports twice the
  bytes it was given, so the user goes behind the end of the data.  Theorem.
- With the same settings the discarded data is in the trace; the manual says that it is not.  Theorem.
- `(nsecs + 500) / 1000` prints 1000000 for the last half microsecond of a second.  Theorem.
- With `delold` and an accepter each new connection empties the file under the others (not modelled: one connection per file).

### Script filter (C199–C202)

- `script_handle_err_unlock` unlocks at :176 and again at :183 after each error.  Theorem.
- `script_ul_write` returns `GE_NOTREADY` with the lock held (:386): if the script fails between the base's question for pending output and its
  write, the filter is stuck.  Theorem.
- `GENSIO_EVENT_READ` keeps at most 1024 bytes and leaves `*buflen` (:228-234): of a longer read (`readbuf` of the script's gensio) the rest is
  lost.  Theorem.
- At the end of the script what is in `scrtog_buf` is never sent and what is in `gtoscr_buf` never reaches the user.  Theorem for all that may
  follow.
- `script_ul_write` uses `io` after its handler (:377) although the script may have ended: NULL.  Theorem.

### Stdio, reading (C203–C207)

- A failed write sets `ll_err`; `stdion_read_ready` then switches the handlers off and does nothing (:576-579).  The reader gets neither the
  output that is left nor an error.  Theorem for all that may follow.
- `stdion_open` keeps `data_pending_len`: the first data of a new program is what the user left of the old one.  If reading is switched on in
  `open_done` the new session never reads at all.  Theorems.
- With data waiting, reading on, off before the deferred operation runs, and on again leaves `in_read` set for ever (:529, :445-449).  Theorem
  for all that may follow.
- `i_stdion_close` leaves `read_enabled`: after `gensio_close` or `gensio_free` returned, the loop of `stdion_finish_read` calls the user
  again with the rest of the data.  Theorem.
- `in_close` is set back only if there is a `close_done` (:349-359): after `gensio_close(io, NULL, NULL)` the gensio can not be opened again
  and `gensio_free` frees nothing.  Theorem for all that may follow.
- Not modelled: a failing read callback in the deferred operation is called again at once, without end if it keeps failing (:445-449); writes
  after `GENSIO_CONTROL_CLOSE_OUTPUT` use the NULL `in_iod`.

### Stdio, life (C208–C210)

- `close_done` wakes another thread that calls `gensio_free`: both threads see `in_free` and free the gensio (:362-366, :861-867).  Theorem.
- `in_free` of the stderr channel is never set back: a second stderr channel is freed after its `close_done` while the user has it.  Theorem.
- Opening stderr again after its close, or after the close of the main channel, uses a NULL `out_iod`.  Theorem.
- A failing open of stderr closes the descriptors of the open main channel (:740-748), whose close then uses NULL.  Theorem.
- `closing_chan` is never set back (:376): in a second session the close of stderr is ended for the main channel; its report is lost, or the
  descriptors of the main channel are closed with handlers set (assertion).  Theorems.
- "You cannot re-open the gensio until both are closed" (`man/gensio.5:985-987`) is not checked: the close of stderr never ends.  Theorem.
- `GENSIO_CONTROL_WAIT_TASK` does not set `exit_code_set` (:966-969); a new session gives the exit code of the last one; `waitpid_retries` is
  never set back, so that after 1000 tries in all sessions a close leaves the program behind.  Theorems.
- The wait for output (:306-320) looks at `out_iod`, which `stdion_fd_cleared` has closed already: never done (the careful runs show it).
- Not modelled: `self` and `console`; a second open of a `self` gensio uses NULL descriptors.

### Dummy and stdio accepters (C211–C213)

- `dummyna_startup` sets the state to enabled in any case (:94-96): refused during a shutdown, it drops the report of the shutdown.  Theorem.
- `stdiona_fd_cleared` does not look at `in_free` of the gensio: freed without a close, the accepter is never given back.  Theorem.
- `stdiona_set_accept_callback_enable` takes a reference although the runner is queued already, and without the lock.  Theorem (leak).
- Every startup takes a reference for the one gensio, and gives it again, NULL if it was freed.  Theorems.
- `cleanup_io_self` drops the references of handlers, and, after a startup that `set_fd_handlers` refused, the handlers of the open gensio,
  whose close then never ends.  Theorems.
- `stdiona_do_connect` reads `shutdown_done` without the lock: one report twice, one never.  Theorem.
- A freed accepter still gives its new connection.  Theorem.
- Not formalised: `stdio_gensio_accepter_alloc` returns 0 without an accepter if the second runner cannot be allocated (:1541-1545), and adds
  the descriptor of standard input twice (:1169, :1553), losing the first; `stdiona_shutdown` gives `GE_NOTREADY` where the manual has `GE_INUSE`.

### Modem state and asynchronous controls (C214, C215)

- `serialdev_timeout` remembers the lines in the mask only, but compares all lines with them (:717-718): a line that is on and not in the mask
  sends an event every second for ever, although the comment says that only lines in the mask are reported.  Theorem.
- A mask set while a look is under way or the device is closed, or set to 0 before a look that fails, may never have its callback called.  Theorem.
- The timer fires between its restart and the end of the look: nothing looks at the lines any more.  Theorem.
- `gensio_acontrol_s_done` computes `copysize` and copies `len` bytes (`gensio.c:666-669`): heap or stack overflow of the caller for every answer
  longer than the buffer; with a length of 0, the way to probe that the manual gives, `datalen - 1` wraps.  Theorem.
- Waiters of refused and interrupted calls are lost, and the answer to an interrupted call is written into a frame that is gone.  Theorems.

### Requests to the serial device (C216, C217)

- `sterm_check_close_drain` looks at `termio_q` and not at `deferred_op_pending`: with the callback of a request still running, the close ends,
  the gensio may be freed, and `serconf_process` then takes the lock of freed memory.  Theorem.

### Options of the serial device (C218)

- `speedstr_to_speed` puts `strtoul` into an `int`: 4294977296 sets 10000.  Theorem.
- `set_serdef_from_speed` changes settings before it refuses the rest; harmless, as nothing it refuses is accepted as another option.  Theorem.
- `lookup_parity_str` looks at the case, unlike all other options of old: "odd" is refused.  Example.

### Memory checker (C219)

- `mem_header.size` is an `int32_t`: the free of a block of 2 GiB or more reads in front of it.  Theorem.
- Writes into a freed block are not found: only the fillers are checked.  Theorem.
- A block whose free found something stays in the list and is reported as lost as well.  Example.
- `check_mem` runs before the lock is taken; `free_bt[0]` is written for every caller, and before the check, so that the place of the
  first free is gone when a second is reported.  Not formalised.

### Failures on purpose (C220)

- With the variable set to N, the call after the Nth fails, against the comment; after 2^32 calls another one.  Theorems.
- `errtrig_exit` before any `do_errtrig` does not change the code 1, which then says that a call was made to fail.  Theorem.

### Serial locks (C48, C49)
* Steps are system calls.  Theorems: stale lock removal, a holder that exits, two device names and flock-only processes break
  exclusion of the UUCP lock; a crash before writing makes the lock unobtainable.  With flock in use too (default) mutual
  exclusion is proved.  Not formalised: reuse of process ids; TIOCEXCL.

### Synchronous calls (C40, C41, C82)
* Theorems: a second reader gets the same bytes and the rest is lost; no count on a write error; an accept can be told
  GE_LOCALCLOSED, or wait beside a connection.  Not formalised: `sync_io->err` is sticky; `gensio_clear_sync` frees while
  calls wait; `accept_s` after shutdown waits for ever.

### Base gensio (C28–C30)
* Steps are lock sections; filter and lower layer are arbitrary within a contract stated in `Model/Base.lean`; the theorems
  are about *clean* runs (`Clean`), each excluded situation having its own counterexample.
* Theorems: a close before the open report drops it (left undefined by gensio_close(3)); failing `ll_close` loses the report;
  an open and close in the window before the close callback swap callbacks; a close callback while the open callback runs; a
  late timer fails an assertion; `basen_open_nochild` does not clear `close_requested`; a drain timer still stopping fails
  an assertion at the next close; references lost to timers (two ways); the new session's timer stopped by the old close; a
  refused open leaves the lower layer open.
* Not formalised: filters calling `basen_start_timer_op` without the lock (relpkt) change the reference count unprotected;
  `ll_want_close`/`in_write_count` are dead code because the lock is held; `timer_start_pending` is never cleared after use;
  `filter_cleanup` is not called when the lower layer fails to open.

## Mutation tests

`seeded/LOG.jsonl` has one line per wrong program tried (an edit of a model definition like a realistic bug), the claim it
breaks and the theorems that no longer prove.  Lines with a non-empty `tightened` led to a stronger theorem.

## Claims, status and axioms per theorem

Status and theorem names are those of `MANIFEST.json`.  Axioms as printed by `#print axioms`: P = `propext`, C = `Classical.choice`, Q = `Quot.sound`.

* **C01** (proved) Circular buffer is a bounded FIFO
  * `Gensio.CircBuf.C01_circbuf_fifo`: P, C, Q
  * Refinement of every operation history to a bounded FIFO, no UB.
* **C02** (proved) Circular buffer never leaves its memory and reports exact room
  * `Gensio.CircBuf.C02_circbuf_bounds`: P, C, Q
  * Every reachable state.
* **C03** (partial) Output buffer keeps byte order and reports how much it took
  * `Gensio.Buffer.C03_buffer_queue_partial`: P, C, Q
  * `Gensio.Buffer.C03_buffer_count_nowrap_partial`: P, C, Q
  * `Gensio.Buffer.C03_buffer_count_violated`: none
  * Queue behaviour proved; the returned count is wrong after a wrap (lib/buffer.c:88-94), shown by witness.
* **C04** (proved) 16 and 32 bit network byte order codecs are inverse
  * `Gensio.Codec.C04_u32`: P, Q
  * `Gensio.Codec.C04_u16`: P, Q
  * Codecs are inverse of each other and big endian
* **C05** (proved) Quoting a string makes it a single argument again
  * `Gensio.Args.C05_quote_roundtrip`: P, Q
  * `Gensio.Args.C05_quote_scan_args`: P, Q
  * `Gensio.Args.C05_quote_alloc`: P, Q
  * `Gensio.Args.C05_argv_snprintf`: P, C, Q
  * Quoting round trip through the splitter and the gensio string parser
* **C06** (proved) The argument splitter is total and never reads past the string
  * `Gensio.Args.C06_splitter_total`: P, C, Q
  * `Gensio.Args.C06_scan_args_total`: P, C, Q
  * `Gensio.Args.C06_plain_split`: P, Q
  * `Gensio.Args.C06_words_exist`: P, Q
  * Splitter always ends with a result or an error
* **C07** (partial) Hex and octal escapes give the byte they name
  * `Gensio.Args.C07_octal`: P, C, Q
  * `Gensio.Args.C07_hex_partial`: P, C, Q
  * `Gensio.Args.C07_hex_violated`: none
  * Octal escapes and decimal-digit hex escapes are right; hex escapes with letters are decoded wrongly (violated, witness for all such pairs)
* **C08** (proved) Linked lists behave as sequences
  * `Gensio.LList.C08_list_sequence`: P, Q
  * `Gensio.LList.C08_misuse_caught`: P, Q
  * Refinement of the pointer lists to sequences
* **C09** (proved) Counted strings are freed exactly when the last reference is dropped
  * `Gensio.CntStr.C09_cntstr`: P, Q
  * `Gensio.CntStr.C09_last_release_frees`: P, Q
  * `Gensio.CntStr.C09_wrap_violated`: P, Q
  * Assumes fewer than 2^32 references to one string; C09_wrap_violated shows that bound is needed
* **C10** (proved) Timer heap always yields the earliest entry and loses nothing
  * `Gensio.Heap.C10_heap`: P, C, Q
  * `Gensio.Heap.C10_timers`: P, C, Q
  * `Gensio.Heap.C10_winTimers`: P, C, Q
  * Pointer level model of heap.h; any proper sequence of add, remove and key changes, any total comparison.
* **C100** (partial) An AX.25 write stores the given data in its packet
  * `Gensio.Ax25.C100_write_in_bounds_violated`: P, Q
  * `Gensio.Ax25.C100_write_content_partial`: P, Q
  * Violated: a piece before the last that passes the packet size makes the length left wrap, and the rest is copied past the end of the buffer. Proved: every write whose pieces before the last fit is stored exactly.
* **C101** (partial) AX.25 raw and UI writes stay within their buffer
  * `Gensio.Ax25.C101_raw_in_bounds_violated`: none
  * `Gensio.Ax25.C101_raw_content_partial`: P, Q
  * Violated: data longer than max_write_size is copied whole into memory allocated for the truncated length. Proved: data up to max_write_size.
* **C102** (partial) No peer can break an AX.25 channel
  * `Gensio.Ax25.C102_peer_cannot_break_violated`: P, Q
  * `Gensio.Ax25.C102_fallback_window_violated`: P, Q
  * `Gensio.Ax25.C102_read_error_after_close_violated`: P, Q
  * `Gensio.Ax25.C102_peer_cannot_break_partial`: P, C, Q
  * Violated three ways: XID parameter 6 sets the window, fallback to SABM sets a window of 2 with a queue of 1, a read callback that fails after the close removes the channel twice. Proved for all other runs by an invariant over all events.
* **C103** (partial) XID negotiation gives a window and packet size both ends can use
  * `Gensio.Ax25.C103_window_zero_violated`: P, Q
  * `Gensio.Ax25.C103_size_violated`: P, Q
  * `Gensio.Ax25.C103_window_modulo_violated`: P, C, Q
  * `Gensio.Ax25.C103_window_partial`: P, Q
  * `Gensio.Ax25.C103_group_partial`: P, Q
  * `Gensio.Ax25.C103_bad_length_partial`: P, Q
  * Violated: parameter 6 of an XID sets the window instead of the packet size (window 0), the packet size is never lowered, the window can reach the modulus. Proved: the XID made by this library sets the window to the minimum; XIDs with parameters of 1 to 4 bytes are used parameter by parameter and answered, others are given up.
* **C104** (partial) AX.25 delivers in order and once over a lossy channel
  * `Gensio.Ax25.C104_in_order_once_partial`: P, C, Q
  * `Gensio.Ax25.C104_duplicate_ua_violated`: P, Q
  * `Gensio.Ax25.C104_taken`: P, Q
  * Invariant over both channels and the frames in flight, with ghost histories. Violated with ign_emb_ua off by a second UA. Missing: repeated, reordered or changed frames, a window of 1.
* **C105** (partial) A clean AX.25 close loses no data
  * `Gensio.Ax25.C105_clean_close_partial`: P, C, Q
  * `Gensio.Ax25.C105_stored_data_lost_violated`: P, Q
  * `Gensio.Ax25.C105_drain_cut_short_violated`: P, Q
  * Violated: data stored at the receiver when the DISC arrives is dropped; a second UA ends the wait of a close for acknowledgements. Proved for a sender with nothing unacknowledged and a receiver with nothing stored.
* **C106** (proved) AX.25 frames survive encoding, addressing and the CRC
  * `Gensio.Ax25.C106_frame_roundtrip`: P, C, Q
  * `Gensio.Ax25.C106_read_inside`: P, C, Q
  * `Gensio.Ax25.C106_corrupted_dropped`: P, C, Q
  * Frames as bytes: control field in both modes, command bits in the addresses, CRC; the lookup of the channel is represented by its result. Reading inside the packet is about the addresses and control field; the report is C107.
* **C107** (partial) AX.25 reports stay inside the packet
  * `Gensio.Ax25.C107_empty_ui_violated`: P, Q
  * `Gensio.Ax25.C107_unnumbered_overread_violated`: P, Q
  * `Gensio.Ax25.C107_ui_partial`: P, Q
  * Violated: a UI frame without a PID is reported with 4294967295 bytes; every unnumbered frame without content makes the report code read a byte after the packet. Partial: UI frames with a PID.
* **C108** (partial) A running AX.25 timer has a timer of the OS
  * `Gensio.Ax25Timer.C108_safe`: P, C, Q
  * `Gensio.Ax25Timer.C108_t1_backed_partial`: P, C, Q
  * `Gensio.Ax25Timer.C108_t1_fires_partial`: P, C, Q
  * `Gensio.Ax25Timer.C108_t3_lost_violated`: P, Q
  * `Gensio.Ax25Timer.C108_t2_lost_violated`: P, Q
  * Violated: when the handler runs while T1 is stopped, T2 and T3 keep running without an OS timer (every connection that is opened and then idle). Partial: T1 always has its timer and is acted on; no assertion fails in any order.
* **C109** (partial) An AX.25 channel is released when its timer is
  * `Gensio.Ax25Timer.C109_refs_partial`: P, Q
  * `Gensio.Ax25Timer.C109_ua_leak_violated`: P, Q
  * `Gensio.Ax25Timer.C109_reopen_leak_violated`: P, Q
  * `Gensio.Ax25Timer.C109_leak_stays`: P, C, Q
  * Violated: a second UA (ign_emb_ua off) and an open from the close callback inside the timeout handler leave a reference that is never released. Partial: exact references for all other runs.
* **C11** (proved) CRC tables implement the stated polynomials
  * `Gensio.Crc.C11_crc16`: P, C, Q
  * `Gensio.Crc.C11_ccitt`: P, C, Q
  * `Gensio.Crc.C11_value_unique`: P, Q
  * Table loops equal polynomial long division for every init and message
* **C110** (partial) The AX.25 round trip time follows the measurements
  * `Gensio.Ax25Timer.C110_smooth_partial`: P, Q
  * `Gensio.Ax25Timer.C110_idle_growth_violated`: P, Q
  * `Gensio.Ax25Timer.C110_idle_hours_violated`: P, Q
  * `Gensio.Ax25Timer.C110_fast_zero_violated`: P, Q
  * `Gensio.Ax25Timer.C110_zero_stays_violated`: P, Q
  * `Gensio.Ax25Timer.C110_backoff_violated`: P, Q
  * Violated: every frame received while T1 does not run makes T1 longer by an eighth (60 frames: over 2 hours); answers within a millisecond bring it to 0 for good; from the 26th retry it is 0 and at the 30th undefined. Partial: the smoothing formula while T1 runs.
* **C111** (partial) AX.25 gives up after the configured retries
  * `Gensio.Ax25.C111_no_retries_violated`: P, Q
  * `Gensio.Ax25.C111_gives_up_partial`: P, Q
  * Violated: retries=0 polls for ever. Partial: at least one retry configured, all data sent, T1/T2/sending only.
* **C112** (partial) keepopen never faults
  * `Gensio.Keepopen.C112_no_fault_partial`: P, C, Q
  * `Gensio.Keepopen.C112_free_open_violated`: P
  * `Gensio.Keepopen.C112_free_closing_violated`: P
  * `Gensio.Keepopen.C112_close_opening_violated`: P
  * `Gensio.Keepopen.C112_close_log_violated`: P
  * `Gensio.Keepopen.C112_disable_violated`: P
  * `Gensio.Keepopen.C112_free_callback_violated`: P
  * Proved for steps that are clean: the user does not free an open or closing gensio or one in some callbacks, does not close in an unlocked log, and the child does not report an open after it was closed. Each of these exceptions is a counterexample in the code: keepn_free of an open gensio takes its own lock again (and otherwise fails an assertion later), freeing a closing one fails an assertion, and so on.
* **C113** (partial) keepopen reports each open and close once
  * `Gensio.Keepopen.C113_reports_partial`: P, C, Q
  * `Gensio.Keepopen.C113_close_ends_partial`: P, C, Q
  * `Gensio.Keepopen.C113_close_lost_violated`: P
  * `Gensio.Keepopen.C113_refused_close_violated`: P
  * Proved for clean steps and a child that does not refuse to close. A close from the open callback of an open that failed at once is accepted and lost; a close the child refuses returns the error and is reported all the same.
* **C114** (proved) keepopen opens its child again
  * `Gensio.Keepopen.C114_stays_open`: P, C, Q
  * `Gensio.Keepopen.C114_reopens`: P, C, Q
  * For all sequences without a close, free or disable of the user: no fault, and while the child is not open some step of the child or timer is to come; if these do not fail the child is open after at most 62 of them.
* **C115** (partial) keepopen frees its memory
  * `Gensio.Keepopen.C115_refs_partial`: P, C, Q
  * `Gensio.Keepopen.C115_free_ends_partial`: P, C, Q
  * `Gensio.Keepopen.C115_freed_retries_violated`: P
  * Proved for clean steps. A gensio freed in the open callback of an open that failed at once goes on trying to open its child.
* **C116** (proved) keepopen restores the enables of the child
  * `Gensio.Keepopen.C116_enables`: P, Q
  * For all steps, also those that are not clean.
* **C117** (partial) A write to keepopen does not fail
  * `Gensio.Keepopen.C117_write_partial`: P, Q
  * `Gensio.Keepopen.C117_null_count_violated`: P
  * Proved for a caller that gives a count; a NULL count, which the manual allows, is written through when the child fails.
* **C118** (partial) keepopen logs the error of the child
  * `Gensio.Keepopen.C118_error_kept_partial`: P, Q
  * `Gensio.Keepopen.C118_restored_partial`: P, Q
  * `Gensio.Keepopen.C118_logged_violated`: P, Q
  * The error of the child is kept in last_child_err and a later success is logged as restored, but what is logged for an error is the answer of gensio_close, no error if it was accepted.
* **C119** (partial) Accepters are released when, and only when, nothing uses them
  * `Gensio.Acc.C119_released`: P, C, Q
  * `Gensio.Acc.C119_no_fault_partial`: P, C, Q
  * `Gensio.Acc.C119_stale_flag_violated`: none
  * Release is proved in all runs; no faults for runs without a start after a shutdown that waited for a callback, an enable without a callback on a child accepter while one is awaited, and a shutdown the child refuses.  call_shutdown_done is never cleared (counterexample).
* **C12** (proved) CRC detects every short burst error
  * `Gensio.Crc.C12_msgdelim`: P, C, Q
  * `Gensio.Crc.C12_hdlc`: P, C, Q
  * `Gensio.Crc.C12_msgdelim_accepts`: P, C, Q
  * `Gensio.Crc.C12_hdlc_accepts`: P, C, Q
  * Burst on the frame before escaping/stuffing, same length
* **C120** (partial) A shutdown of an accepter is reported once, and last
  * `Gensio.Acc.C120_told_once_partial`: P, C, Q
  * `Gensio.Acc.C120_told_last_partial`: P, C, Q
  * `Gensio.Acc.C120_told_partial`: P, C, Q
  * `Gensio.Acc.C120_early_violated`: P
  * `Gensio.Acc.C120_refused_violated`: P
  * Proved for calm runs (see C119); counterexamples: reported early after a restart; a refused shutdown reported after the free.
* **C121** (proved) Connections are given only while the accepter is open
  * `Gensio.Acc.C121_connections`: P, C, Q
  * All runs.
* **C122** (partial) An accepter that was started stays open
  * `Gensio.Acc.C122_stays_open_partial`: P, C, Q
  * `Gensio.Acc.C122_closed_violated`: P
  * Proved for calm runs (see C119); after a shutdown that waited for a callback and a restart, the next callback closes the upper half only.
* **C123** (partial) Enabling and disabling connections is reported once
  * `Gensio.Acc.C123_told_once`: P, C, Q
  * `Gensio.Acc.C123_accepted_partial`: P, C, Q
  * `Gensio.Acc.C123_null_violated`: none
  * `Gensio.Acc.C123_stuck_violated`: P
  * Once: all runs.  Accepted: accepters with sockets only; a child accepter that refused one call refuses all, and a call without a callback clears the pointer that is called (counterexamples).
* **C124** (partial) The sockets of an accepter are closed and can be asked for
  * `Gensio.Acc.C124_shutdown`: P, C, Q
  * `Gensio.Acc.C124_control_partial`: P, C, Q
  * `Gensio.Acc.C124_disable_partial`: none
  * `Gensio.Acc.C124_closed_violated`: P, Q
  * `Gensio.Acc.C124_closing_violated`: P, Q
  * Shutdown: all orders.  Questions: while open; during and after a shutdown they use a NULL pointer (counterexamples).
* **C125** (partial) A datagram is given to the user as it came
  * `Gensio.Dgram.C125_datagram_partial`: P, Q
  * `Gensio.Dgram.C125_datagram_again_violated`: P, Q
  * `Gensio.Dgram.C125_datagram_content_violated`: P, Q
  * `Gensio.Dgram.C125_aux_overflow_violated`: none
  * A user that takes part of a datagram is given its beginning again (read_data, not read_data + data_pos), and auxi is not reset on a retry, so that auxmem overflows. Proved for users that take all at once.
* **C126** (partial) Datagram gensios do not fault
  * `Gensio.Dgram.C126_no_fault_partial`: P, C, Q
  * `Gensio.Dgram.C126_write_enable_violated`: P, Q
  * `Gensio.Dgram.C126_reopen_violated`: P, Q
  * `Gensio.Dgram.C126_enable_callback_violated`: P, Q
  * `Gensio.Dgram.C126_no_fault_violated`: P, Q
  * Three kinds of faults; without what leads to them there is none, in all interleavings.
* **C127** (partial) Datagram gensios are released
  * `Gensio.Dgram.C127_references_partial`: P, C, Q
  * `Gensio.Dgram.C127_released_partial`: P, C, Q
  * `Gensio.Dgram.C127_lost_reference_violated`: P, Q
  * `Gensio.Dgram.C127_lost_connection_violated`: P, Q
  * The references are counted in all runs; one is lost by a second enable, and a connection by a deferred operation of its accepter.
* **C128** (partial) Datagrams are read when they may be
  * `Gensio.Dgram.C128_read_count_partial`: P, C, Q
  * `Gensio.Dgram.C128_read_stuck_violated`: P, C, Q
  * The read disable count is right in all runs; the one of the read handler is never given back if no datagram handler runs afterwards, so reading stops for ever.
* **C129** (partial) Each close of a datagram connection is reported once
  * `Gensio.Dgram.C129_close_once_partial`: P, Q
  * `Gensio.Dgram.C129_close_done_partial`: P, C, Q
  * `Gensio.Dgram.C129_lost_close_violated`: P, Q
  * `Gensio.Dgram.C129_lost_close_shutdown_violated`: P, Q
  * At most once in all runs; lost in deferred read callbacks and shutdown callbacks, otherwise exactly once.
* **C13** (proved) Telnet carries arbitrary binary data transparently
  * `Gensio.Telnet.C13_receive`: P, C, Q
  * `Gensio.Telnet.C13_xmit`: P, Q
  * `Gensio.Telnet.C13_transparent`: P, C, Q
  * `Gensio.Telnet.C13_progress`: P, C, Q
  * all streams, all chunkings
* **C130** (partial) A datagram goes to the connection with its address
  * `Gensio.Dgram.C130_delivery_partial`: P, C, Q
  * `Gensio.Dgram.C130_misdelivery_violated`: P, Q
  * With two sockets the data of one datagram can be given to the connection of another; otherwise right.
* **C131** (partial) A datagram accepter can be started again
  * `Gensio.Dgram.C131_closed_partial`: P, Q
  * `Gensio.Dgram.C131_restart_violated`: P, Q
  * The flag closed is never cleared: a start after a shutdown succeeds but no connection is ever taken.
* **C132** (partial) The controls of datagram gensios set and get what they say
  * `Gensio.Dgram.C132_extrainfo_partial`: P, C, Q
  * `Gensio.Dgram.C132_mcast_loop_violated`: P, C, Q
  * `Gensio.Dgram.C132_mcast_ttl_violated`: none
  * `Gensio.Dgram.C132_extrainfo_violated`: P
  * `Gensio.Dgram.C132_str_to_gensio_violated`: none
  * MCAST_LOOP is set inverted, a get of MCAST_TTL sets it, EXTRAINFO works for one connection only and leaves the lock held on errors, a check lacks its statement.
* **C133** (partial) Connections that wait to write on one socket are all told
  * `Gensio.Dgram.C133_write_count_partial`: P, C, Q
  * `Gensio.Dgram.C133_write_starvation_violated`: P, Q
  * The count is right if writing is not changed while opening; only the first connection in the list is ever told.
* **C134** (proved) Each enable of a datagram accepter is reported once
  * `Gensio.Dgram.C134_enable_once`: P, Q
  * All runs.
* **C135** (partial) Opens and shutdowns of datagram gensios are reported once
  * `Gensio.Dgram.C135_once_partial`: P, Q
  * `Gensio.Dgram.C135_lost_shutdown_violated`: P, Q
  * `Gensio.Dgram.C135_lost_open_violated`: P, Q
  * At most once in all runs; a shutdown in a new connection callback and an open closed early are never reported.
* **C136** (partial) Each RFC 2217 request is answered exactly once
  * `Gensio.Rfc2217.C136_at_most_once_partial`: P, C, Q
  * `Gensio.Rfc2217.C136_free_violated`: P, C, Q
  * `Gensio.Rfc2217.C136_reopen_violated`: P, C, Q
  * `Gensio.Rfc2217.C136_closed_accepts_violated`: P, C, Q
  * `Gensio.Rfc2217.C136_not_allowed_partial`: P, C, Q
  * Proved over all runs: accepted = answered + waiting + dropped, so no callback is made twice. Missing: each is made at all, which is false: freeing drops requests, closing stops their timer for good, and a closed gensio accepts requests (counterexamples).
* **C137** (partial) RFC 2217 requests time out after the time asked for
  * `Gensio.Rfc2217.C137_timeout_partial`: P, C, Q
  * `Gensio.Rfc2217.C137_not_before_partial`: P, C, Q
  * `Gensio.Rfc2217.C137_late_violated`: P, C, Q
  * `Gensio.Rfc2217.C137_zero_violated`: P, C, Q
  * `Gensio.Rfc2217.C137_rounded_up_partial`: P, C, Q
  * Proved: reported after at most its time plus one tick per request before it, while not closed; never before its time. Missing: exactly at its time, which is false when an earlier request expires in the same tick; zero times never expire (counterexamples).
* **C138** (partial) The setting asked for is the one the server is told
  * `Gensio.Rfc2217.C138_settings_partial`: P, C, Q
  * `Gensio.Rfc2217.C138_states_partial`: P, C, Q
  * `Gensio.Rfc2217.C138_flow_state_violated`: P, C, Q
  * `Gensio.Rfc2217.C138_masks_partial`: P, C, Q
  * Proved for all one byte controls through the telnet encoding and parser for every way to cut the stream; baud rates and the signature are C140 and C148. False for the flow state (counterexample).
* **C139** (partial) An answer completes the request it answers
  * `Gensio.Rfc2217.C139_answer_partial`: P, C, Q
  * `Gensio.Rfc2217.C139_server_partial`: P, C, Q
  * `Gensio.Rfc2217.C139_stale_violated`: P, C, Q
  * Proved for all one byte controls in all states reached by runs. Missing: an answer that comes after its request timed out completes the next one (counterexample).
* **C14** (partial) Telnet option negotiation terminates
  * `Gensio.Telnet.C14_terminates_partial`: P, Q
  * `Gensio.Telnet.C14_ack_silent_partial`: P
  * `Gensio.Telnet.C14_ack_answered_violated`: P
  * termination proved with explicit bound; the no-answer-to-acknowledgement part is violated by the RFC 2217 server (sent_do not set)
* **C140** (partial) Baud rates are carried exactly
  * `Gensio.Rfc2217.C140_baud_partial`: P, Q
  * `Gensio.Rfc2217.C140_set_partial`: P, C, Q
  * `Gensio.Rfc2217.C140_shift_violated`: P, C, Q
  * `Gensio.Rfc2217.C140_cisco_violated`: P, C, Q
  * `Gensio.Rfc2217.C140_bounds_partial`: P, C, Q
  * Proved for rates below 2^31 and the table of Cisco. Received first bytes of 128 or more shift into the sign bit, and a rate Cisco has no value for is sent as a question (counterexamples).
* **C141** (partial) A telnet synch discards the data before the mark and nothing else
  * `Gensio.TelnetFilt.C141_skipped_partial`: P, Q
  * `Gensio.TelnetFilt.C141_mark_violated`: P, Q
  * `Gensio.TelnetFilt.C141_mark_missed_violated`: P, Q
  * `Gensio.TelnetFilt.C141_abandoned_partial`: P, Q
  * Proved: all before the mark is discarded, in any pieces. The mark itself is delivered as data, and a mark that overtakes its IAC makes everything after it be discarded (counterexamples).
* **C142** (partial) Window sizes are carried exactly
  * `Gensio.Rfc2217.C142_window_partial`: P, C, Q
  * `Gensio.Rfc2217.C142_255_violated`: P
  * `Gensio.Rfc2217.C142_data_violated`: P
  * Proved for sizes below 65536 with no byte of 255, which is not escaped (counterexamples).
* **C143** (partial) A failed allocation of the telnet filter frees everything once
  * `Gensio.TelnetFilt.C143_alloc_partial`: P, Q
  * `Gensio.TelnetFilt.C143_twice_violated`: P
  * Proved for the first allocations; a failure in the raw allocation frees the tables twice (counterexample for each).
* **C144** (partial) Both halves of a telnet gensio agree which end is the client
  * `Gensio.Rfc2217.C144_mode_partial`: P
  * `Gensio.Rfc2217.C144_default_violated`: none
  * Proved if a mode argument is given or no default is configured; false with a default of server.
* **C145** (partial) The telnet filter writes only what is in its buffer and starts afresh when opened
  * `Gensio.TelnetFilt.C145_buffer_partial`: P, Q
  * `Gensio.TelnetFilt.C145_position_violated`: none
  * `Gensio.TelnetFilt.C145_reopen_stuck_violated`: P, Q
  * Proved over all runs in which nothing is written between an error and the close, and a fresh state after a reopen with RFC 2217 or RFC 1073. False otherwise (counterexamples).
* **C146** (partial) A serial value that means nothing is refused
  * `Gensio.Rfc2217.C146_refused_partial`: P, C, Q
  * `Gensio.Rfc2217.C146_number_violated`: P, C, Q
  * Proved for names and for numbers out of range after conversion; texts that are no numbers and numbers beyond 32 bits are accepted (counterexample).
* **C147** (partial) Asking for a serial setting does not change it
  * `Gensio.Rfc2217.C147_get_partial`: P, C, Q
  * `Gensio.Rfc2217.C147_mask_violated`: P, C, Q
  * Proved for all controls but the two masks, for which asking sets the mask to 0 (counterexample).
* **C148** (partial) The signature of the server is reported as it was set
  * `Gensio.Rfc2217.C148_signature_partial`: P, C, Q
  * `Gensio.Rfc2217.C148_cut_violated`: P
  * `Gensio.Rfc2217.C148_lost_violated`: P, Q
  * Proved for at most 27 bytes without NUL; longer ones are cut by the receiver and those of 251 bytes or more never sent (counterexamples).
* **C149** (partial) The echo gensio gives back what was written
  * `Gensio.Echo.C149_echo`: P, C, Q
  * `Gensio.Echo.C149_offered`: P, Q
  * `Gensio.Echo.C149_reopen_violated`: P
  * Order and completeness for all runs (C149_echo, C149_offered). Not for reopens: what was not read before a close is read after the next open (C149_reopen_violated).
* **C15** (proved) Telnet command parsing stays inside its buffers
  * `Gensio.Telnet.C15_parser_in_bounds`: P, C, Q
* **C150** (proved) The echo gensio uses no freed memory and is silent after free
  * `Gensio.Echo.C150_memory`: P, C, Q
  * All runs. Allocation failures and echon_disable are not modelled.
* **C151** (partial) Opens and closes of an echo gensio are reported once with the right result
  * `Gensio.Echo.C151_reported_partial`: P, C, Q
  * `Gensio.Echo.C151_result_violated`: P
  * `Gensio.Echo.C151_result_read_violated`: P
  * Reported once, in order, for all runs without a free. The result can be wrong: the variable err is not reset at the label restart.
* **C152** (partial) An echo gensio wakes up whoever enabled a callback
  * `Gensio.Echo.C152_awake_partial`: P, C, Q
  * `Gensio.Echo.C152_error_violated`: P
  * `Gensio.Echo.C152_end_violated`: P
  * For runs in which no callback gives an error and no close comes during an open. Violated otherwise, and for the end of data with noecho.
* **C153** (partial) A write to a file gensio counts what was written
  * `Gensio.FileIo.C153_written_partial`: P, Q
  * `Gensio.FileIo.C153_dropped_partial`: P, Q
  * `Gensio.FileIo.C153_count_violated`: none
  * `Gensio.FileIo.C153_empty_violated`: P
  * With an output file, and without one if all parts have the same length. Violated: sg->buflen is added for every part; an empty write is reported as GE_REMCLOSE.
* **C154** (partial) A file gensio delivers the file
  * `Gensio.FileIo.C154_read_partial`: P, C, Q
  * `Gensio.FileIo.C154_end_partial`: P, C, Q
  * `Gensio.FileIo.C154_twice_violated`: P
  * `Gensio.FileIo.C154_reopen_violated`: P
  * `Gensio.FileIo.C154_stale_violated`: P
  * `Gensio.FileIo.C154_error_violated`: P
  * For operations that do not overlap and one open. Violated by two operations at once (same bytes twice, others dropped), by reopens (read_err and data_pending_len are kept) and by errors of write callbacks.
* **C155** (partial) A file gensio closes the files it opens
  * `Gensio.FileIo.C155_descriptors_partial`: P, C, Q
  * `Gensio.FileIo.C155_open_violated`: P
  * `Gensio.FileIo.C155_free_violated`: P
  * If output files can be opened and an open gensio is not freed. Violated: the input file is leaked if the output file cannot be opened; free closes nothing.
* **C156** (partial) A file gensio uses no freed memory and is silent after free
  * `Gensio.FileIo.C156_memory`: P, C, Q
  * `Gensio.FileIo.C156_silent_partial`: P, C, Q
  * `Gensio.FileIo.C156_after_free_violated`: P
  * Memory for all runs; silence only if nothing is scheduled or running at the free, since the state is set to closed only then.
* **C157** (partial) What is left in the buffer of a file gensio is moved correctly
  * `Gensio.FileIo.C157_move_partial`: P, Q
  * `Gensio.FileIo.C157_overlap_violated`: P
  * If all, at least half, or nothing is taken. Violated: memcpy with overlap otherwise.
* **C158** (partial) Opens and closes of a file gensio are reported once, not during another callback
  * `Gensio.FileIo.C158_reported`: P, C, Q
  * `Gensio.FileIo.C158_alone_partial`: P, Q
  * `Gensio.FileIo.C158_close_violated`: P
  * Once and in order for all runs; alone only if operations do not overlap, which the code does not ensure.
* **C159** (proved) A file gensio wakes up whoever enabled a callback
  * `Gensio.FileIo.C159_awake`: P, C, Q
  * All runs, for reads; for writes unless a callback gave an error.
* **C16** (partial) Message delimiter layer delivers each message intact
  * `Gensio.Msgdelim.C16_send`: P, Q
  * `Gensio.Msgdelim.C16_delivery_partial`: P, C, Q
  * `Gensio.Msgdelim.C16_progress`: P, Q
  * `Gensio.Msgdelim.C16_first_message_lost_violated`: P, Q
  * proved for messages that fit the allocated receive buffer with their check value; violated after GE_TOOBIG on the first write or after reopen (initial separator lost)
* **C160** (partial) Two socket addresses compare equal exactly when they name the same host and port
  * `Gensio.AddrInfo.C160_equal_partial`: P, C, Q
  * `Gensio.AddrInfo.C160_equivalence`: P, C, Q
  * `Gensio.AddrInfo.C160_scope_violated`: P, Q
  * `Gensio.AddrInfo.C160_path_violated`: P, Q
  * `Gensio.AddrInfo.C160_lengths`: P, Q
  * Proved for all addresses with the usual lengths, the scope left out of what is named. Counterexamples: the scope of an IPv6 address is ignored; a path made by gensio_addr_create is not equal to the same path read from a string.
* **C161** (partial) An address is in a subnet exactly when the bits under the mask agree
  * `Gensio.AddrInfo.C161_v4`: P, C, Q
  * `Gensio.AddrInfo.C161_v6`: P, C, Q
  * `Gensio.AddrInfo.C161_v6_in_v4`: P, C, Q
  * `Gensio.AddrInfo.C161_v4_in_v6_partial`: P, C, Q
  * `Gensio.AddrInfo.C161_present`: P, Q
  * `Gensio.AddrInfo.C161_zero_violated`: P, Q
  * `Gensio.AddrInfo.C161_mapped_violated`: P, Q
  * Proved for masks from 1 to the width; an IPv4 address against an IPv6 entry for masks above 96. Counterexamples: the mask 0 covers one address only; ::ffff:0:0/96 does not cover an IPv4 address given as such.
* **C162** (partial) Removing duplicates keeps the first of equal addresses, in order, and all others
  * `Gensio.AddrInfo.C162_scan`: P, C, Q
  * `Gensio.AddrInfo.C162_firsts`: P, Q
  * `Gensio.AddrInfo.C162_cat_partial`: P, C, Q
  * `Gensio.AddrInfo.C162_masks_violated`: P, Q
  * `Gensio.AddrInfo.C162_scope_violated`: P, Q
  * `Gensio.AddrInfo.C162_empty_violated`: P, Q
  * Proved for all lists getaddrinfo can give, and for concatenations in careful use. Counterexamples: masks are ignored, so a wider subnet after a narrower one is dropped; so is one of two scopes; an empty first address hides the second.
* **C163** (partial) Copies and concatenations of addresses share memory safely
  * `Gensio.AddrInfo.C163_memory_partial`: P, C, Q
  * `Gensio.AddrInfo.C163_others_partial`: P, C, Q
  * `Gensio.AddrInfo.C163_dup_partial`: P, C, Q
  * `Gensio.AddrInfo.C163_cat_self_violated`: P, Q
  * `Gensio.AddrInfo.C163_cat_made_violated`: P, Q
  * `Gensio.AddrInfo.C163_cat_argument_violated`: P, Q
  * `Gensio.AddrInfo.C163_link_violated`: P, Q
  * `Gensio.AddrInfo.C163_copy_violated`: P, Q
  * Proved for runs in which a duplicate met in a concatenation is in a list from getaddrinfo or a never shared one, and the two allocations whose failures are not handled succeed; all other allocations may fail. Counterexamples for both conditions.
* **C164** (partial) Iterating gives every address of an address once, in order
  * `Gensio.AddrInfo.C164_iterate`: P, Q
  * `Gensio.AddrInfo.C164_next_partial`: P, C, Q
  * `Gensio.AddrInfo.C164_equal_all`: P, C, Q
  * `Gensio.AddrInfo.C164_next_empty_violated`: P
  * `Gensio.AddrInfo.C164_current_violated`: P, Q
  * `Gensio.AddrInfo.C164_first`: P, Q
  * Proved for lists without empty items. Counterexamples: next past an empty item, and the comparison of current addresses of an empty address.
* **C165** (partial) A subnet mask in a string is taken as written or rejected
  * `Gensio.AddrInfo.C165_mask_partial`: P, Q
  * `Gensio.AddrInfo.C165_large_violated`: none
  * `Gensio.AddrInfo.C165_name_violated`: none
  * `Gensio.AddrInfo.C165_family_violated`: P, Q
  * `Gensio.AddrInfo.C165_no_slash`: none
  * Proved for numbers below 2^32, for IPv6 and for numeric addresses announced by ipv4. Counterexamples: 2^32 is taken as 0, a mask of a name wraps at 256, an IPv4 number without ipv4 is checked against 128.
* **C166** (partial) The data and port an address is made of are the ones it gives back
  * `Gensio.AddrInfo.C166_roundtrip_partial`: P, C, Q
  * `Gensio.AddrInfo.C166_room`: P, C, Q
  * `Gensio.AddrInfo.C166_set_port_partial`: P, Q
  * `Gensio.AddrInfo.C166_port_violated`: P, Q
  * `Gensio.AddrInfo.C166_ax25_violated`: none
  * `Gensio.AddrInfo.C166_scope`: P, Q
  * `Gensio.AddrInfo.C166_path`: P, Q
  * Proved for ports below 65536 and paths without zero bytes. Counterexamples: larger ports wrap; reading the data of an AX.25 address through gensio_addr_get_data calls NULL.
* **C167** (partial) The connecting accepter fails no assertion and uses no freed memory
  * `Gensio.Conacc.C167_careful_partial`: P, C, Q
  * `Gensio.Conacc.C167_double_close_violated`: P
  * `Gensio.Conacc.C167_disable_connection_violated`: P
  * `Gensio.Conacc.C167_enable_shutdown_violated`: P
  * `Gensio.Conacc.C167_disable_enable_violated`: P
  * `Gensio.Conacc.C167_shutdown_in_open_violated`: P
  * `Gensio.Conacc.C167_shutdown_timer_violated`: P
  * `Gensio.Conacc.C167_control_violated`: P
  * Proved for careful users; false otherwise: second close, disable of a connection, enable then shutdown while waiting, disable then enable while opening, shutdown while an open is reported or the timer goes off, and a control while a connection is given up.
* **C168** (partial) An enabled connecting accepter keeps trying
  * `Gensio.Conacc.C168_keeps_trying_partial`: P, C, Q
  * `Gensio.Conacc.C168_tries_again_partial`: P, C, Q
  * `Gensio.Conacc.C168_enable_ready_violated`: P
  * `Gensio.Conacc.C168_failed_enable_violated`: P
  * Proved for careful users who do not enable an accepter that has a connection; enabling one disables it, and a failed enable leaves it stuck.
* **C169** (partial) Shutdowns and enables of the connecting accepter are reported once
  * `Gensio.Conacc.C169_enable_partial`: P, C, Q
  * `Gensio.Conacc.C169_enable_pending_partial`: P, C, Q
  * `Gensio.Conacc.C169_shutdown_partial`: P, C, Q
  * `Gensio.Conacc.C169_shutdown_ends_partial`: P, C, Q
  * Proved for careful users (see C167).
* **C17** (partial) Message delimiter layer stays inside its receive buffer
  * `Gensio.Msgdelim.C17_in_bounds_partial`: P, Q
  * `Gensio.Msgdelim.C17_max_message_overflows_violated`: P, Q
  * `Gensio.Msgdelim.C17_any_crc_overflows_violated`: P, Q
  * violated: limit is allocation + 2; holds when the allocation is at least the limit
* **C170** (partial) The connecting accepter has one connection at a time
  * `Gensio.Conacc.C170_one_partial`: P, C, Q
  * `Gensio.Conacc.C170_known_partial`: P, C, Q
  * `Gensio.Conacc.C170_handed_once`: P, Q
  * `Gensio.Conacc.C170_handed_open`: P, Q
  * `Gensio.Conacc.C170_two_violated`: P
  * One connection at a time proved for careful users (a second close of a connection makes two); handed over at most once, and only while open, for all
* **C171** (partial) The connecting accepter gives back its memory
  * `Gensio.Conacc.C171_accepter_partial`: P, C, Q
  * `Gensio.Conacc.C171_connections_partial`: P, C, Q
  * `Gensio.Conacc.C171_user_partial`: P, C, Q
  * Proved for careful users (see C167).
* **C172** (partial) The store of default values touches only its own memory
  * `Gensio.Defaults.C172_no_fault_partial`: P, C, Q
  * `Gensio.Defaults.C172_text_ends`: P, Q
  * `Gensio.Defaults.C172_data_violated`: P, Q
  * `Gensio.Defaults.C172_data_run_violated`: P, Q
  * No fault for any sequence of calls that asks for no data. VIOLATED: every request for a default of type data writes one byte behind the copy (gensio.c:3073-3078).
* **C173** (partial) The default that is given is the one that was set
  * `Gensio.Defaults.C173_answers_partial`: P, C, Q
  * `Gensio.Defaults.C173_exact_partial`: P, C, Q
  * `Gensio.Defaults.C173_memory`: P, C, Q
  * `Gensio.Defaults.C173_set_get_partial`: P, C, Q
  * `Gensio.Defaults.C173_value`: P
  * `Gensio.Defaults.C173_value_all`: P, Q
  * `Gensio.Defaults.C173_others`: P, C, Q
  * All calls are answered as by a map; partial because requests for data fault (C172).
* **C174** (partial) A reset of the defaults brings back the values of the start
  * `Gensio.Defaults.C174_reset_partial`: P, C, Q
  * `Gensio.Defaults.C174_udp_violated`: P, Q
  * After a reset every built-in default has the value of the table for every class. VIOLATED: reuseaddr for UDP, set to false when the library starts, is true after a reset.
* **C175** (partial) Defaults are inside their range
  * `Gensio.Defaults.C175_taken_partial`: P, C, Q
  * `Gensio.Defaults.C175_int_violated`: P, Q
  * `Gensio.Defaults.C175_bool_violated`: P, Q
  * `Gensio.Defaults.C175_timeout_violated`: P, C, Q
  * `Gensio.Defaults.C175_int`: P, C, Q
  * Texts of numbers are in range, enums are of the table. VIOLATED: numbers given as numbers are not checked; a text makes a bool any number; con-timeout, mdnstimeout and hangup-when-done accept no text but 0.
* **C176** (partial) The store of default values gives back its memory
  * `Gensio.Defaults.C176_owned_partial`: P, C, Q
  * `Gensio.Defaults.C176_all_partial`: P, C, Q
  * `Gensio.Defaults.C176_reset_violated`: P, Q
  * `Gensio.Defaults.C176_del_violated`: P, Q
  * `Gensio.Defaults.C176_cleanup_violated`: P, Q
  * Every block has one owner and all are freed without the calls that lose memory. VIOLATED: a reset loses class values of data, a deletion loses the string the default was made with, cleanup leaves added defaults.
* **C177** (partial) A call for a default that fails changes nothing
  * `Gensio.Defaults.C177_failed_partial`: P, C, Q
  * Every call that answers an error leaves the map as it was; partial because requests for data fault (C172).
* **C178** (partial) Default addresses and counts are used
  * `Gensio.Defaults.C178_addr_partial`: P
  * `Gensio.Defaults.C178_addr_put`: P
  * `Gensio.Defaults.C178_addr_errors`: P
  * `Gensio.Defaults.C178_addr_violated`: P
  * `Gensio.Defaults.C178_uint`: P, C, Q
  * VIOLATED: gensio_get_defaultaddr returns 1 when it found an address, which its callers take for the error out of memory, so that a default local address makes every such gensio fail. Proved: the address put in place is the scanned one; counts are never negative.
* **C179** (partial) TLS output reaches the lower layer in order
  * `Gensio.Ssl.C179_output_in_order_partial`: P, Q
  * `Gensio.Ssl.C179_buffers`: P, Q
  * `Gensio.Ssl.C179_forgotten_error_violated`: P
  * Proved for all reachable states without a forgotten error; the code forgets an error of the lower layer if want_write is set (:560-608)
* **C18** (partial) Message delimiter layer recovers after line noise
  * `Gensio.Msgdelim.C18_only_checked_partial`: P, Q
  * `Gensio.Msgdelim.C18_initial_noise_partial`: P, C, Q
  * `Gensio.Msgdelim.C18_never_recovers_violated`: P, C, Q
  * check value part proved; recovery violated for every message list after one bad message
* **C180** (partial) TLS takes the data of the user once
  * `Gensio.Ssl.C180_count`: P, Q
  * `Gensio.Ssl.C180_thrown_away`: P, Q
  * `Gensio.Ssl.C180_in_order_partial`: P, Q
  * `Gensio.Ssl.C180_no_fault_partial`: P, Q
  * `Gensio.Ssl.C180_other_bytes_violated`: P
  * Counts for all states; order and repetition without a forgotten error, counterexample with one
* **C181** (proved) TLS gives the user all data that was read
  * `Gensio.Ssl.C181_in_order`: P, Q
  * `Gensio.Ssl.C181_offer`: P, Q
  * `Gensio.Ssl.C181_taken`: P, Q
  * `Gensio.Ssl.C181_goes_on`: P
  * `Gensio.Ssl.C181_input`: P, Q
  * All reachable states, calls may come while the read handler runs
* **C182** (partial) TLS errors have a cause and stay
  * `Gensio.Ssl.C182_sticky`: P, Q
  * `Gensio.Ssl.C182_reported`: P
  * `Gensio.Ssl.C182_cause_partial`: P, Q
  * `Gensio.Ssl.C182_peek_violated`: P
  * A successful SSL_peek is reported as GE_NOMEM (:600-606)
* **C183** (proved) TLS leaves nothing behind
  * `Gensio.Ssl.C183_drained`: P, Q
  * `Gensio.Ssl.C183_pending`: P
  * `Gensio.Ssl.C183_can_write`: P, Q
  * All calls
* **C184** (partial) The TLS handshake has a time limit
  * `Gensio.Ssl.C184_deadline_partial`: P, Q
  * `Gensio.Ssl.C184_second_open_violated`: P
  * First open; the time of the first open is used for the second (ssl_cleanup leaves start_time_set)
* **C185** (partial) Authentication means a verified certificate
  * `Gensio.Ssl.C185_authenticated_partial`: P, Q
  * `Gensio.Ssl.C185_server`: none
  * `Gensio.Ssl.C185_no_cert`: P
  * `Gensio.Ssl.C185_post`: P
  * `Gensio.Ssl.C185_refusal_violated`: none
  * `Gensio.Ssl.C185_store_violated`: none
  * `Gensio.Ssl.C185_post_violated`: none
  * What OpenSSL does with the verification is an assumption (Model/Ssl.lean, handshake); clients ignore refusals and their own store
* **C186** (partial) TLS memory of certificates and names
  * `Gensio.Ssl.C186_certs_partial`: P, Q
  * `Gensio.Ssl.C186_over_free_violated`: none
  * `Gensio.Ssl.C186_name_violated`: P, Q
  * `Gensio.Ssl.C186_name_partial`: P, Q
  * Any number of complete opens; a failed handshake frees the certificate too often, the user name keeps the pointer of the caller
* **C187** (partial) An open over two children is reported exactly once, and not half done
  * `Gensio.Ll2.C187_open_partial`: P, Q
  * One open and one close in any interleaving with the children; the part about a close in between is C188.
* **C188** (partial) A close over two children is reported exactly once, after both are closed
  * `Gensio.Ll2.C188_close_partial`: P, Q
  * `Gensio.Ll2.C188_close_in_open_violated`: P
  * `Gensio.Ll2.C188_close_failed_violated`: P
  * Holds for a close of an open gensio. Violated during an open: the state is set to closed before it is tested for a close, so the open is reported and the close never is.
* **C189** (partial) A two-child lower layer can be opened again
  * `Gensio.Ll2.C189_reopen_violated`: P, Q
  * `Gensio.Ll2.C189_second_close_violated`: P
  * `Gensio.Ll2.C189_old_error_violated`: P
  * `Gensio.Ll2.C189_hang_violated`: P
  * `Gensio.Ll2.C189_never_again_violated`: P, Q
  * Violated: the state is never left after a close, the error and the flags of an earlier open are never cleared; proved for every sequence that follows.
* **C19** (partial) KISS layer delivers each frame intact
  * `Gensio.Kiss.C19_send_partial`: P, Q
  * `Gensio.Kiss.C19_delivery`: P, Q
  * `Gensio.Kiss.C19_max_frame_dropped_violated`: P, Q
  * Sender: data up to the write size. Receiver: frames with type byte and data within the read size; a frame of exactly the configured size is dropped by an equally configured receiver (violation proved).
* **C190** (proved) The throughput filter counts right
  * `Gensio.Perf.C190_counts`: P, C, Q
  * `Gensio.Perf.C190_total`: P, C, Q
  * Texts are any that fit the buffer; counters do not wrap.
* **C191** (proved) The reports of the throughput filter arrive whole and in order
  * `Gensio.Perf.C191_text`: P, C, Q
  * `Gensio.Perf.C191_taken`: P, C, Q
  * Texts are any that fit the buffer.
* **C192** (partial) The throughput test ends with its total
  * `Gensio.Perf.C192_last`: P, C, Q
  * `Gensio.Perf.C192_ends`: P, C, Q
  * `Gensio.Perf.C192_lost_violated`: P, C, Q
  * `Gensio.Perf.C192_after_violated`: P, C, Q
  * The end comes and only after the total was read. Violated: an error while a periodic report waits loses the total for good, and a tick may follow the total.
* **C193** (partial) The throughput filter measures and prints times right
  * `Gensio.Perf.C193_since`: P, C, Q
  * `Gensio.Perf.C193_ms_partial`: P, C, Q
  * `Gensio.Perf.C193_ms_violated`: P, Q
  * `Gensio.Perf.C193_write_end`: P, C, Q
  * `Gensio.Perf.C193_write_kept`: P, C, Q
  * Differences exact; the printed milliseconds are wrong (1000) for the last half millisecond of each second.
* **C194** (partial) The throughput filter writes as fast as the lower layer takes
  * `Gensio.Perf.C194_asked_partial`: P, C, Q
  * `Gensio.Perf.C194_idle_violated`: P, C, Q
  * `Gensio.Perf.C194_no_buffer_violated`: P, C, Q
  * `Gensio.Perf.C194_again_partial`: P, Q
  * `Gensio.Perf.C194_stall_violated`: P, Q
  * `Gensio.Perf.C194_slow_violated`: P, Q
  * Violated: a lower layer that takes everything is not asked again, so two buffers are written and then one a second; calls that do nothing are asked for while input is awaited; writebuf=0 never ends.
* **C195** (proved) The hex dump shows all data and nothing else
  * `Gensio.Trace.C195_text`: P, Q
  * `Gensio.Trace.C195_back`: P, Q
  * `Gensio.Trace.C195_pos`: P, C, Q
  * `Gensio.Trace.C195_shown`: P, C, Q
  * All data and pieces. The reader of the text is defined from the format, not from the code. isprint of the C locale; positions are modulo 2^32 as in the code.
* **C196** (partial) The trace holds exactly what crossed the filter
  * `Gensio.Trace.C196_trace`: P, Q
  * `Gensio.Trace.C196_raw`: P, Q
  * `Gensio.Trace.C196_off`: P
  * `Gensio.Trace.C196_time_violated`: P, Q
  * `Gensio.Trace.C196_time_partial`: P, C, Q
  * Entries, order and raw bytes hold for all calls. Missing: the time has seven digits after the colon in the last half microsecond of each second (violation proved).
* **C197** (partial) The trace filter does not change the stream
  * `Gensio.Trace.C197_write`: P, Q
  * `Gensio.Trace.C197_read`: P, Q
  * `Gensio.Trace.C197_block_read`: P, Q
  * `Gensio.Trace.C197_block_write_partial`: P, Q
  * `Gensio.Trace.C197_count_violated`: P, Q
  * `Gensio.Trace.C197_discard_violated`: P, Q
  * Missing: with b4dir and block for writes the count is twice the bytes given, and discarded data is in the trace against the manual (both proved).
* **C198** (proved) Trace files are opened and closed once and kept
  * `Gensio.Trace.C198_handles`: P, C, Q
  * `Gensio.Trace.C198_append`: P, C, Q
  * `Gensio.Trace.C198_delold`: P, Q
  * `Gensio.Trace.C198_open_fails`: P
  * `Gensio.Trace.C198_no_place`: P, C, Q
  * Assumes the base connects only a filter that is new or cleaned up, and one connection per file; fopen may fail, writes do not.
* **C199** (partial) The lock of the script filter is given back once
  * `Gensio.Script.C199_lock_partial`: P, C, Q
  * `Gensio.Script.C199_unlock_violated`: P
  * `Gensio.Script.C199_stuck_violated`: P
  * Missing: each failed open gives the lock back twice, and a write to a filter whose script failed meanwhile keeps it (both proved). All other paths are right.
* **C20** (partial) KISS layer never claims to have sent bytes it dropped
  * `Gensio.Kiss.C20_count_partial`: P, Q
  * `Gensio.Kiss.C20_truncated_violated`: P, C, Q
  * `Gensio.Kiss.C20_empty_writes_overrun_violated`: P, Q
  * Holds for non-empty writes within the write size; truncation reported as accepted and overrun by empty writes are proved violations.
* **C200** (partial) No byte between script and peer is lost or moved
  * `Gensio.Script.C200_order_partial`: P, C, Q
  * `Gensio.Script.C200_cut_violated`: P, Q
  * `Gensio.Script.C200_lost_violated`: P, C, Q
  * `Gensio.Script.C200_taken`: P, Q
  * Order and contents hold while the script runs if its reads are at most 1024 bytes. Missing: longer reads are cut, and what is buffered at the end of the script is lost in both directions (both proved).
* **C201** (proved) The end of the script is the result of the open
  * `Gensio.Script.C201_once`: P, C, Q
  * `Gensio.Script.C201_success`: P, C, Q
  * `Gensio.Script.C201_failure`: P
  * `Gensio.Script.C201_final`: P
  * Assumes the base as in Ok (setup after cleanup, one write at a time) and that a freed gensio gives no more callbacks.
* **C202** (partial) The script's gensio is freed once and not used after
  * `Gensio.Script.C202_memory_partial`: P, C, Q
  * `Gensio.Script.C202_null_violated`: P
  * Missing: if the script ends while the lower layer takes its output, NULL is used (proved). Without that race all histories are right.
* **C203** (proved) Stdio delivers the output of the program in order and once
  * `Gensio.Stdio.C203_stream`: P, C, Q
  * `Gensio.Stdio.C203_offer`: P, C, Q
  * Model of one channel with the handler, the deferred operation and their callbacks as open intervals; over all sessions.
* **C204** (partial) Stdio reports errors after the data, and always
  * `Gensio.Stdio.C204_last`: P, C, Q
  * `Gensio.Stdio.C204_report_partial`: P, Q
  * `Gensio.Stdio.C204_silent_violated`: P, C, Q
  * The order is proved; that the reader is always told is violated: after a failed write no callback ever comes (theorem over all continuations). Partial: told at once if no error came before.
* **C205** (partial) A stdio session gives only its own data
  * `Gensio.Stdio.C205_fresh_partial`: P, C, Q
  * `Gensio.Stdio.C205_stale_violated`: none
  * `Gensio.Stdio.C205_blocked_violated`: none
  * Violated: stdion_open keeps the buffer, whose bytes are given in the new session or stop it. Partial: sessions that begin with an empty buffer.
* **C206** (partial) Stdio is quiet after a close, reports it once and can be used again
  * `Gensio.Stdio.C206_reports`: P, C, Q
  * `Gensio.Stdio.C206_quiet_partial`: P, C, Q
  * `Gensio.Stdio.C206_ends_partial`: P, Q
  * `Gensio.Stdio.C206_after_violated`: none
  * `Gensio.Stdio.C206_noreport_violated`: P, C, Q
  * Counting of reports proved. Violated: data callbacks after a close or free returned; a close without close_done never ends, so that the gensio is never freed. Partial: quiet once the deferred operation began the close; the close with close_done ends. The wait for the program is in the StdioLife unit.
* **C207** (partial) Stdio keeps reading
  * `Gensio.Stdio.C207_moves_partial`: P, C, Q
  * `Gensio.Stdio.C207_asleep_violated`: P, C, Q
  * Violated: on, off and on again around the deferred operation leaves in_read set and no callback ever comes (theorem over all continuations). Partial: users that do not switch off while the deferred operation is due, whose callbacks do not fail and that leave no data at a close.
* **C208** (partial) Stdio gensio memory and references
  * `Gensio.StdioLife.C208_refs_partial`: P, C, Q
  * `Gensio.StdioLife.C208_race_violated`: none
  * `Gensio.StdioLife.C208_realloc_violated`: none
  * `Gensio.StdioLife.C208_reopen_violated`: none
  * `Gensio.StdioLife.C208_errfail_violated`: none
  * Proved for a careful user: one program per gensio, a stderr channel allocated once, opened while its descriptor is there and successfully, closes with close_done, no free of a gensio from another thread while its close_done runs. Violated otherwise: double free between close_done and gensio_free, a second stderr channel freed under the user, NULL used by a second open of stderr, descriptors of the main channel closed by a failing open of stderr.
* **C209** (partial) Close of a stdio channel is reported
  * `Gensio.StdioLife.C209_once`: P, C, Q
  * `Gensio.StdioLife.C209_goes_partial`: P, C, Q
  * `Gensio.StdioLife.C209_lost_violated`: P
  * `Gensio.StdioLife.C209_abort_violated`: none
  * `Gensio.StdioLife.C209_both_violated`: P
  * At most one report for each close with close_done in every run; for a careful user (see C208) the close always goes on, with at most 1003 steps of the system. Violated in a second session of a gensio with a stderr channel: report lost, assertion, close without end.
* **C21** (proved) HDLC bit stuffing is transparent and flag-free
  * `Gensio.Hdlc.C21_transparent`: P, C, Q
  * `Gensio.Hdlc.C21_receive`: P, C, Q
  * All frame contents; bit-level encoder and receiver.
* **C210** (partial) Exit code of the program
  * `Gensio.StdioLife.C210_code_partial`: P, C, Q
  * `Gensio.StdioLife.C210_waited_violated`: none
  * `Gensio.StdioLife.C210_stale_violated`: none
  * `Gensio.StdioLife.C210_retries_violated`: P, Q
  * For a careful user (see C208) without GENSIO_CONTROL_WAIT_TASK and a system that does not fail to wait: a code that is given is the status of the program, and it is given after both channels are closed unless the 1000 tries are used up. Violated: not given after WAIT_TASK, the code of an earlier session given, tries never given back.
* **C211** (partial) The dummy accepter reports each shutdown and enable once and is freed exactly when nothing holds it
  * `Gensio.Dummy.C211_once`: P, C, Q
  * `Gensio.Dummy.C211_shut_partial`: P, C, Q
  * `Gensio.Dummy.C211_memory`: P, C, Q
  * `Gensio.Dummy.C211_progress`: P, Q
  * `Gensio.Dummy.C211_refused_violated`: P, C, Q
  * The report of a shutdown is proved for runs without a startup while a shutdown is under way; such a startup is refused but enables the accepter, and C211_refused_violated proves that the report of the shutdown then never comes. Enables, references and progress are proved without that.
* **C212** (partial) The stdio accepter is freed exactly when nothing holds it
  * `Gensio.StdioAcc.C212_memory`: P, C, Q
  * `Gensio.StdioAcc.C212_careful_partial`: P, C, Q
  * `Gensio.StdioAcc.C212_gensio_violated`: P, C, Q
  * `Gensio.StdioAcc.C212_enable_violated`: P, C, Q
  * `Gensio.StdioAcc.C212_again_violated`: P, C, Q
  * `Gensio.StdioAcc.C212_error_violated`: P, C, Q
  * C212_memory accounts for every reference, with those that were lost; C212_careful_partial proves that nothing is lost for a user that closes the gensio before freeing it, waits for each enable, starts up once per gensio, and meets no failure of set_fd_handlers. The four violations prove that without each of these the accepter is never given back, whatever follows. Reads and writes are left out.
* **C213** (partial) The stdio accepter reports each shutdown, enable, connection and close once
  * `Gensio.StdioAcc.C213_once`: P, C, Q
  * `Gensio.StdioAcc.C213_conn`: P, C, Q
  * `Gensio.StdioAcc.C213_shut_partial`: P, C, Q
  * `Gensio.StdioAcc.C213_window_violated`: P, C, Q
  * `Gensio.StdioAcc.C213_null_violated`: none
  * `Gensio.StdioAcc.C213_free_violated`: none
  * `Gensio.StdioAcc.C213_refused_violated`: P, C, Q
  * `Gensio.StdioAcc.C213_quiet`: P, C, Q
  * `Gensio.StdioAcc.C213_close_once`: P, C, Q
  * Enables and connections are counted exactly and closes are bounded for all runs; shutdowns are counted exactly if no other one is accepted between the unlock and the look at shutdown_done. The violations: one report given twice and one never, a connection that is NULL, a connection after the free, and a close that never ends after a startup that was refused. After a free no close is reported, and a second close is refused (proved in full).
* **C214** (partial) The serial device reports modem lines when they change and answers every mask
  * `Gensio.SerModem.C214_look`: P, C, Q
  * `Gensio.SerModem.C214_first`: P
  * `Gensio.SerModem.C214_told`: P, C, Q
  * `Gensio.SerModem.C214_turns_partial`: P, C, Q
  * `Gensio.SerModem.C214_progress_partial`: P, C, Q
  * `Gensio.SerModem.C214_callback_partial`: P, C, Q
  * `Gensio.SerModem.C214_masked_violated`: P
  * `Gensio.SerModem.C214_lost_violated`: P
  * `Gensio.SerModem.C214_stuck_violated`: P
  * One look (callbacks, event, bits, what is remembered), the first state after a mask, and the account of callbacks are proved in full for all runs. Lines outside the mask are remembered as off, so that they count as changed at every look (violated); with all lines in the mask the events are exactly the changes. The callback of a mask may never be called, and looking may stop for ever, when the timer fires while a look is under way (violated); progress holds when it does not fire in that window.
* **C215** (partial) Waiting for an asynchronous control puts the answer into the buffer and releases the waiter
  * `Gensio.Acontrol.C215_first`: P, Q
  * `Gensio.Acontrol.C215_depth`: P, Q
  * `Gensio.Acontrol.C215_set`: P
  * `Gensio.Acontrol.C215_answer_partial`: P, Q
  * `Gensio.Acontrol.C215_safe_partial`: P, Q
  * `Gensio.Acontrol.C215_overflow_violated`: P, Q
  * `Gensio.Acontrol.C215_one_violated`: P
  * `Gensio.Acontrol.C215_leak_violated`: P, Q
  * `Gensio.Acontrol.C215_interrupt_violated`: P
  * Depths, sets and errors are proved in full. gensio_acontrol_s_done computes how much fits and then copies the whole answer: every answer longer than the buffer overflows it, a buffer of no bytes included (violated); answers that fit are right. Refused calls lose their waiter and interrupted calls leave a pointer into their frame (violated).
* **C216** (partial) Requests to the serial device are answered once and in order, and closing waits for them
  * `Gensio.SerConf.C216_answers_partial`: P, C, Q
  * `Gensio.SerConf.C216_accepted`: P, Q
  * `Gensio.SerConf.C216_progress`: P
  * `Gensio.SerConf.C216_free_violated`: P
  * Proved for all runs in which the gensio is not freed while the callback of a request runs. The close looks at the queue, from which the request whose callback runs has been taken, and not at deferred_op_pending: the gensio can be freed under the runner (violated).
* **C217** (proved) Closing the serial device drains its output within the set times
  * `Gensio.SerConf.C217_total`: P, C, Q
  * `Gensio.SerConf.C217_char`: P, C, Q
  * `Gensio.SerConf.C217_waits`: P, Q
  * `Gensio.SerConf.C217_empty`: P
  * `Gensio.SerConf.C217_off`: P, C, Q
  * All parts proved for all times and sequences of counts.
* **C218** (partial) The options of the serial device are read as the manual says
  * `Gensio.SerSpeed.C218_accept_partial`: P, C, Q
  * `Gensio.SerSpeed.C218_print`: P, C, Q
  * `Gensio.SerSpeed.C218_other`: P, C, Q
  * `Gensio.SerSpeed.C218_wrap_violated`: P, C, Q
  * Proved for all strings whose number fits into an int. A larger number is not refused but taken modulo 2^32 (violated).
* **C219** (partial) The memory checker finds what it is there for and nothing else
  * `Gensio.Memtrack.C219_free_partial`: P, C, Q
  * `Gensio.Memtrack.C219_lost`: P, C, Q
  * `Gensio.Memtrack.C219_zero`: P, C, Q
  * `Gensio.Memtrack.C219_clean_partial`: P, C, Q
  * `Gensio.Memtrack.C219_all`: P, C, Q
  * `Gensio.Memtrack.C219_size_violated`: P, Q
  * `Gensio.Memtrack.C219_after_violated`: none
  * Partial for blocks below 2 GiB: the size is kept in an int32_t. Writes into a freed block are not found.
* **C22** (partial) HDLC layer keeps delivering frames indefinitely
  * `Gensio.Hdlc.C22_delivers_partial`: P, C, Q
  * `Gensio.Hdlc.C22_after_noise_partial`: P, C, Q
  * `Gensio.Hdlc.C22_ninth_frame_violated`: P, C, Q
  * Holds for the first eight frames (certain bits); the ninth frame reads outside delivermsgs, proved for every configuration.
* **C220** (partial) Exactly the chosen call is made to fail, and the exit code tells whether it was
  * `Gensio.Errtrig.C220_trig`: P, C, Q
  * `Gensio.Errtrig.C220_first`: P, Q
  * `Gensio.Errtrig.C220_exit_partial`: P, Q
  * `Gensio.Errtrig.C220_exit_violated`: P
  * `Gensio.Errtrig.C220_nth_violated`: P, Q
  * `Gensio.Errtrig.C220_wrap_violated`: P, Q
  * Calls count from 0, against the comment; the count wraps after 2^32 calls; the exit code of a program that never called do_errtrig is not changed.
* **C23** (partial) HDLC transmit buffer is large enough for every accepted frame
  * `Gensio.Hdlc.C23_fits_iff`: P, C, Q
  * `Gensio.Hdlc.C23_no_flags_partial`: P, C, Q
  * `Gensio.Hdlc.C23_ff_overflow_violated`: P, C, Q
  * `Gensio.Hdlc.C23_any_content_overflow_violated`: P, C, Q
  * Exact condition proved; the buffer size ignores preamble and postamble, overflow proved for the default flags.
* **C24** (partial) Character translation layer translates each byte once and reports what it took
  * `Gensio.Xlt.C24_translates`: P, Q
  * `Gensio.Xlt.C24_count_partial`: P, Q
  * `Gensio.Xlt.C24_count_violated`: P, Q
  * `Gensio.Xlt.C24_error_keeps_violated`: P, Q
  * Translation in order is proved for every history; the reported count is proved wrong by exactly the number of held bytes, and bytes are kept on a reported error.
* **C25** (partial) Reliable packet layer delivers in order without loss or duplication
  * `Gensio.Relpkt.C25_network_partial`: P, C, Q
  * `Gensio.Relpkt.C25_fifo_partial`: P, C, Q
  * `Gensio.Relpkt.C25_window256_violated`: P, Q
  * `Gensio.Relpkt.C25_window255_violated`: P, Q
  * Proved for windows whose sizes add up to at most 255 packets (FIFO network with loss and duplication, any age) or 256 (network with reordering that does not deliver packets so old that their number is ambiguous). Violated beyond: the receive window check accepts one packet too many, a duplicate is delivered twice.
* **C26** (partial) Reliable packet layer preserves message borders
  * `Gensio.Relpkt.C26_network_partial`: P, C, Q
  * `Gensio.Relpkt.C26_fifo_partial`: P, C, Q
  * `Gensio.Relpkt.C26_stale_violated`: P
  * `Gensio.Relpkt.C26_exact_violated`: P
  * Marks are never lost (same restriction on the windows). Spurious marks: the mark of a transmit slot is never cleared, and a buffer list filling a packet exactly is not seen as truncated.
* **C27** (partial) No received packet can abort the process
  * `Gensio.Relpkt.C27_partial`: P, C, Q
  * `Gensio.Relpkt.C27_violated`: P, Q
  * No assertion fails for any sequence of operations and packets as long as no resend request runs backwards; such a request leads to an assertion failure.
* **C28** (partial) Open completion is reported exactly once
  * `Gensio.Base.C28_partial`: P, C, Q
  * `Gensio.Base.C28_calls`: P, C, Q
  * `Gensio.Base.C28_close_violated`: P, Q
  * `Gensio.Base.C28_llclose_violated`: P, Q
  * `Gensio.Base.C28_llclose_stuck`: P
  * Proved for every filter and every lower layer keeping the stated contract, for runs without the situations listed in Clean. Counterexamples: a close before the report drops the report, and a failing ll_close after a filter failure loses it.
* **C29** (partial) Close completion is reported exactly once and nothing follows it
  * `Gensio.Base.C29_partial`: P, C, Q
  * `Gensio.Base.C29_alone`: P, C, Q
  * `Gensio.Base.C29_deliver`: P
  * `Gensio.Base.C29_llclose`: P, Q
  * `Gensio.Base.C29_swapped_violated`: P, Q
  * `Gensio.Base.C29_overlap_violated`: P, Q
  * `Gensio.Base.C29_timer_violated`: P, Q
  * `Gensio.Base.C29_nochild_violated`: P, Q
  * `Gensio.Base.C29_drain_violated`: P, Q
  * Proved for clean runs (no reopen in the window between unlock and close callback, no close while the open callback runs, no late filter error after close, no reopen with a drain timer still stopping). Each excluded situation has a counterexample.
* **C30** (partial) Gensio memory is released once and only when idle
  * `Gensio.Base.C30_partial`: P, C, Q
  * `Gensio.Base.C30_once`: P
  * `Gensio.Base.C30_double_violated`: P, Q
  * `Gensio.Base.C30_reopen_violated`: P, Q
  * `Gensio.Base.C30_timer_violated`: P, Q
  * `Gensio.Base.C30_refused_violated`: P, Q
  * Reference count, release and absence of use after release proved for clean runs. Counterexamples: references lost to timers, a new session's timer stopped by the old close, a refused open leaving the lower layer open at release.
* **C31** (partial) Mux channel numbers in use are distinct
  * `Gensio.MuxId.C31_new_partial`: P, C, Q
  * `Gensio.MuxId.C31_partial`: P, C, Q
  * `Gensio.MuxId.C31_violated`: P
  * Proved for channel lists in number order, which last until number 0 is given out a second time; after that two live channels can get the same number.
* **C32** (partial) Mux flow control never exceeds the peer's window
  * `Gensio.Mux.C32_window_partial`: P, C, Q
  * `Gensio.Mux.C32_service_violated`: P, Q
  * In a session of two joined muxes the unacknowledged bytes never exceed the window. Violated when the service string is longer than the window: the window computation wraps.
* **C33** (partial) Mux channel data arrives unchanged with message borders
  * `Gensio.Mux.C33_stream_partial`: P, C, Q
  * `Gensio.Mux.C33_write`: P, Q
  * `Gensio.Mux.C33_oob_violated`: P, Q
  * In-order exactly-once delivery of data and message marks per channel for a session in the opened state. Violated for oob data while oob is disabled: the data is skipped but an empty end-of-message callback is made.
* **C34** (partial) Mux byte stream is always well framed
  * `Gensio.Mux.C34_framed_partial`: P, C, Q
  * `Gensio.Mux.C34_send_partial`: P, C, Q
  * `Gensio.Mux.C34_rsp_violated`: P, Q
  * `Gensio.Mux.C34_init_violated`: P, Q
  * `Gensio.Mux.C34_close_violated`: P, Q
  * Violated: a NEW_CHANNEL_RSP forgets a partly sent message of another channel, the answer to the first NEW_CHANNEL overwrites a partly sent INIT, a CLOSE_CHANNEL for a sending channel makes the buffer count wrap and the next send assert. Proved for all histories of calls, received bytes and partial child writes that avoid exactly these events (and re-opening while sending) and write buffers up to 65538 bytes.
* **C35** (partial) Mux header parsing uses only bytes of the message
  * `Gensio.Mux.C35_header_partial`: P, C, Q
  * `Gensio.Mux.C35_short_header_violated`: P, Q
  * Stale header bytes never influence what is received as long as every header has the length its type requires. Violated: the size check compares words with bytes, so a short header is completed from the previous message.
* **C36** (partial) Rate limiter never exceeds its rate and never reorders
  * `Gensio.Ratelimit.C36_rate_partial`: P, Q
  * `Gensio.Ratelimit.C36_reopen_violated`: P, Q
  * `Gensio.Ratelimit.C36_zero_len_violated`: P, Q
  * Rate, order and recovery proved for every history on an open layer; reopening resets the limit and xmit_len=0 never sends (violations). The OS timer is assumed not to fire early.
* **C37** (partial) Character delay layer keeps data in order and bounds the delay
  * `Gensio.Chardelay.C37_order_delay_partial`: P, C, Q
  * `Gensio.Chardelay.C37_safe_without_sendon_partial`: P, Q
  * `Gensio.Chardelay.C37_timeout_sends`: P, Q
  * `Gensio.Chardelay.C37_scan_violated`: P, Q
  * Order and delay bound proved for runs without lower layer failure; with any send-on string every short write reads past the caller's data (violation proved for all such writes).
* **C38** (partial) Time arithmetic is exact
  * `Gensio.Time.C38_add`: P, C, Q
  * `Gensio.Time.C38_diff`: P, C, Q
  * `Gensio.Time.C38_cmp`: P, Q
  * `Gensio.Time.C38_add_nsecs_partial`: P, C, Q
  * `Gensio.Time.C38_add_nsecs_violated`: P, Q
  * add, diff, cmp are exact; gensio_time_add_nsecs leaves nsecs == 1e9 (violated)
* **C39** (partial) Time conversions are consistent
  * `Gensio.Time.C39_msecs_partial`: P, C, Q
  * `Gensio.Time.C39_usecs_partial`: P, C, Q
  * `Gensio.Time.C39_nsecs_partial`: P, C, Q
  * `Gensio.Time.C39_violated`: P
  * `Gensio.Time.C39_to_nsecs_wrong_violated`: P, C, Q
  * ms/us round trip for non-negative counts; gensio_time_to_nsecs is wrong for every time with a nanosecond part; negative counts give ill-formed times (violated)
* **C40** (partial) Synchronous reads partition the input
  * `Gensio.SyncIo.C40_partial`: P, C, Q
  * `Gensio.SyncIo.C40_violated`: P, Q
  * `Gensio.SyncIo.C40_second`: P, Q
  * `Gensio.SyncIo.C40_spurious`: P, Q
  * Proved for all runs in which at each delivery one read waits or the first has room for all; otherwise the code hands the same bytes to the second reader and loses the rest (counterexample and general statement).
* **C41** (partial) Synchronous writes are transmitted in order and counted exactly
  * `Gensio.SyncIo.C41_partial`: P, C, Q
  * `Gensio.SyncIo.C41_error_violated`: P, Q
  * Order and exact counts proved for all writes without error return, including timeouts and partial acceptance; on error no count is stored.
* **C42** (partial) Convolutional code size computations are exact
  * `Gensio.Convcode.C42_encoded_size`: P, C, Q
  * `Gensio.Convcode.C42_decoded_size`: P, Q
  * `Gensio.Convcode.C42_decoded_size_punctured_partial`: P, C, Q
  * `Gensio.Convcode.C42_encoded_bits`: P, Q
  * `Gensio.Convcode.C42_decoded_size_violated`: P
  * `Gensio.Convcode.C42_decoded_size_skipped_violated`: P
  * `Gensio.Convcode.C42_decoded_size_divzero_violated`: P, Q
  * `Gensio.Convcode.C42_short_violated`: P, Q
  * Encoded size exact for all codes and patterns while the raw size fits 32 bits; decoded size inverts it without puncturing and for patterns of whole symbols each keeping a bit. It fails for other patterns (refused, wrong, division by zero) and wraps for input shorter than the tail.
* **C43** (partial) Viterbi decoding returns a most likely message
  * `Gensio.Convcode.C43_hard_partial`: P, C, Q
  * `Gensio.Convcode.C43_soft_partial`: P, C, Q
  * `Gensio.Convcode.C43_tail_violated`: P
  * Full trellis, metric range. The decoded sequence is the closest among all input sequences of the full length; with do_tail the decoder does not restrict itself to zero tails, so it may return a message that is not the closest (C43_tail_violated). Reduced trellis and tail biting not modelled.
* **C44** (partial) Convolutional decode inverts encode
  * `Gensio.Convcode.C44_roundtrip`: P, C, Q
  * `Gensio.Convcode.C44_bytes`: P, C, Q
  * `Gensio.Convcode.C44_correct_partial`: P, C, Q
  * `Gensio.Convcode.C44_tail_violated`: P
  * `Gensio.Convcode.C44_punctured_violated`: P, Q
  * `Gensio.Convcode.C44_extra_bit_violated`: P, Q
  * `Gensio.Convcode.C44_finish_loop_violated`: P, Q
  * Noiseless round trip proved bytes to bytes without puncturing for every code whose symbols determine the input bit; correction proved against the distance to all input sequences, and refuted against the distance among messages with tail; refuted for punctured codes with hard decisions. Also: C44_extra_bit_violated (rate 3/4 pattern, a bit is invented), C44_finish_loop_violated (convdecode_finish does not end).
* **C45** (partial) Convcode layer keeps delivering messages indefinitely
  * `Gensio.Convcode.C45_first8_partial`: P, C, Q
  * `Gensio.Convcode.C45_ninth_violated`: P, C, Q
  * The property is false: after any eight delivered messages the next decodable one is an access behind readmsgs (curr_readmsg never wraps). Proved for up to eight messages with an upper layer that takes each message at once.
* **C46** (partial) AX.25 address wire codec is inverse
  * `Gensio.Ax25Addr.C46_decode_safe`: P, C, Q
  * `Gensio.Ax25Addr.C46_roundtrip_partial`: P, Q
  * `Gensio.Ax25Addr.C46_reserved_violated`: P, Q
  * `Gensio.Ax25Addr.C46_inner_space_violated`: P, Q
  * Bounds safety for every packet; round trip for every valid address at any place in a packet. Reserved bits are not encoded and call signs with inner spaces are accepted (violations).
* **C47** (partial) AX.25 address text form is inverse
  * `Gensio.Ax25Addr.C47_roundtrip_partial`: P, C, Q
  * `Gensio.Ax25Addr.C47_port_violated`: P, C, Q
  * `Gensio.Ax25Addr.C47_flag_violated`: P, C, Q
  * Round trip without port for all valid addresses; the TNC port is never stored and :h with number 0 is refused (violations for all such addresses).
* **C48** (partial) Serial port locking is mutually exclusive
  * `Gensio.Slock.C48_partial`: P, C, Q
  * `Gensio.Slock.C48_pid`: P, C, Q
  * `Gensio.Slock.C48_flock`: P, C, Q
  * `Gensio.Slock.C48_stale_violated`: P, Q
  * `Gensio.Slock.C48_exit_violated`: P, Q
  * `Gensio.Slock.C48_alias_violated`: P, Q
  * `Gensio.Slock.C48_flock_violated`: P, Q
  * Mutual exclusion of the UUCP lock is proved for any number of processes and interleavings when processes end only while idle and unobserved and use one name for the device; counterexamples for stale locks, a holder that exits, two names of a device, and a process that takes only flock. With flock in use (default) no two processes have the device open.
* **C49** (partial) Serial port lock survives crashes
  * `Gensio.Slock.C49_partial`: P, C, Q
  * `Gensio.Slock.C49_violated`: P, Q
  * A crash between creating and writing the lock file makes the lock unobtainable for ever; after a crash at any other point a process that runs alone obtains it.
* **C50** (partial) Timeouts handed to the operating system are well-formed and accurate
  * `Gensio.Time.C50_to_timeval_partial`: P, C, Q
  * `Gensio.Time.C50_add_timeval_partial`: P, C, Q
  * `Gensio.Time.C50_of_timeval`: P, Q
  * `Gensio.Time.C50_violated`: P, Q
  * accuracy holds; tv_usec can be 1000000 (violated)
* **C51** (partial) Telnet commands and user data never cut into each other
  * `Gensio.Telnet.C51_commands_between_items_partial`: P, C, Q
  * `Gensio.Telnet.C51_truncated_command_violated`: none
  * `Gensio.Telnet.C51_skipped_entry_violated`: none
  * proved while the command queue has room; violated when it overflows (td->error never read) or max_write_size is 1
* **C52** (proved) KISS receiver recovers after line noise
  * `Gensio.Kiss.C52_recovers`: P, Q
  * Unbounded noise and frames, any chunking.
* **C53** (partial) KISS client sets the TNC parameters at start
  * `Gensio.Kiss.C53_no_frame_marks_violated`: P, Q
  * `Gensio.Kiss.C53_all_ports_nothing_violated`: P, Q
  * The property is violated by the code; the theorems prove the violations.
* **C54** (proved) HDLC working message table stays consistent
  * `Gensio.Hdlc.C54_table`: P, C, Q
  * Invariant of the table over any bits and hand-overs; queued messages are justified by the received bits, changed only where uncertain.
* **C55** (partial) HDLC sender transmits each accepted frame exactly once
  * `Gensio.Hdlc.C55_exactly_once_partial`: P, C, Q
  * `Gensio.Hdlc.C55_empty_write_violated`: P, C, Q
  * Proved for non-empty writes with any acceptance and failure; a write of no bytes on an idle sender resends a stale frame and wraps the buffer count (violation proved for every frame).
* **C56** (partial) HDLC receiver processes exactly the bits received
  * `Gensio.Hdlc.C56_with_uncertainty_partial`: P, Q
  * `Gensio.Hdlc.C56_bit_count_ignored_violated`: P, Q
  * `Gensio.Hdlc.C56_uncertain_bit_inverted_violated`: P, Q
  * True with an uncertainty array; without one the bit count is ignored, and with a single working message uncertain bits are inverted (both violations proved).
* **C57** (partial) Translation tables are what the configuration says
  * `Gensio.Xlt.C57_tables_partial`: P, Q
  * `Gensio.Xlt.C57_value_violated`: P, Q
  * `Gensio.Xlt.C57_false_violated`: none
  * Tables proved for arguments in range; the replacement value is not range checked and booleans given as false act as true (violations). strtoul parsing is not modelled.
* **C58** (partial) Send-on strings are found when they occur
  * `Gensio.Chardelay.C58_sound_partial`: P, Q
  * `Gensio.Chardelay.C58_single_byte_partial`: P, Q
  * `Gensio.Chardelay.C58_overlap_violated`: P
  * Soundness for all strings, exactness for one byte strings; a self-overlapping string is missed (violation).
* **C59** (partial) Parsing a subaddress depends only on its text
  * `Gensio.Ax25Addr.C59_number_partial`: P, C, Q
  * `Gensio.Ax25Addr.C59_stale_violated`: P, C, Q
  * Holds when a number is given; violated for every call sign without a number.
* **C60** (partial) Lists of AX.25 addresses are parsed
  * `Gensio.Ax25Addr.C60_single_partial`: P, Q
  * `Gensio.Ax25Addr.C60_list_violated`: P
  * A single address works; every list with a semicolon is refused.
* **C61** (partial) AX.25 subaddress syntax
  * `Gensio.Ax25Addr.C61_syntax_partial`: P, C, Q
  * `Gensio.Ax25Addr.C61_syntax_violated`: P, C, Q
  * Soundness of the call sign and range, completeness for callsign and callsign-n; :c/:r refused, bad numbers accepted.
* **C62** (proved) Named escapes give the character they name
  * `Gensio.Args.C62_named`: P, C, Q
  * In any context.
* **C63** (proved) Convolutional encoder computes the convolution
  * `Gensio.Convcode.C63_encoder`: P, C, Q
  * Stream encoder, all codes accepted by setup_convcode1.
* **C64** (proved) Convolutional decoding is independent of chunking
  * `Gensio.Convcode.C64_chunks`: P, C, Q
  * Full trellis; stated for pieces that are accepted (no out of bounds access, loop terminates).
* **C65** (proved) Convolutional block encoder and decoder
  * `Gensio.Convcode.C65_block`: P, C, Q
  * `Gensio.Convcode.C65_pieces`: P, Q
  * `Gensio.Convcode.C65_decode_block`: P, C, Q
  * `Gensio.Convcode.C65_decode_dirty_violated`: P
  * Block encoder with and without puncturing and with symbols spanning bytes; block decoder without puncturing and soft decisions (as the filter uses it). C65_decode_dirty_violated shows that the decoder relies on a zeroed array, which the filter does not provide when reusing a slot.
* **C66** (partial) Reliable packet layer takes every valid acknowledgement
  * `Gensio.Relpkt.C66_partial`: P, C, Q
  * `Gensio.Relpkt.C66_refused_partial`: P, C, Q
  * `Gensio.Relpkt.C66_violated`: P, C, Q
  * Proved with up to 254 packets outstanding; with 255 outstanding every acknowledgement is refused for ever.
* **C67** (partial) Correct ends never see a protocol error
  * `Gensio.Relpkt.C67_partial`: P, C, Q
  * `Gensio.Relpkt.C67_violated`: P, Q
  * Violated by resend requests for packets acknowledged meanwhile; the partial theorem bounds which packets can cause a protocol error.
* **C68** (partial) Mux channels do not disturb each other
  * `Gensio.Mux.C68_isolation_partial`: P, Q
  * `Gensio.Mux.C68_refused_violated`: P, Q
  * `Gensio.Mux.C68_no_channel_violated`: P, Q
  * Every user call and every message for a channel changes only that channel's record (and the mux's shared queues); a refusal of an open request and a close of an open channel leave the mux open. Violated: a refusal of a channel that is being closed takes the whole mux to closed; a NEW_CHANNEL for which no channel can be made desynchronises the parser and kills the mux.
* **C69** (partial) Mux never forgets to ask for the write callback
  * `Gensio.Mux.C69_wake_partial`: P, Q
  * `Gensio.Mux.C69_xmit_violated`: P, Q
  * Proved for a message being sent and for channels waiting; violated for the mux's own control message: a partial write of it with no channel waiting disables the callback.
* **C70** (partial) Mux gives the send window back
  * `Gensio.Mux.C70_window_returned_partial`: P, C, Q
  * `Gensio.Mux.C70_service_violated`: P, Q
  * Holds for sessions that start with nothing unacknowledged. Violated for the first channel: its service bytes are never acknowledged.
* **C71** (partial) Mux does not deadlock
  * `Gensio.Mux.C71_no_deadlock_partial`: P, C, Q
  * For two joined opened muxes and fair histories (no opening or closing during the run, messages that fit the window); liveness of the child itself is an assumption.
* **C72** (partial) Mux closes its child with its last channel
  * `Gensio.Mux.C72_last_close_partial`: P, C, Q
  * `Gensio.Mux.C72_refused_violated`: P, Q
  * Proved for all histories in which no new channel is refused and the mux is opened by its first channel; violated after a refusal, which never decrements nr_not_closed, so that the child is never closed.
* **C73** (proved) Mux peer cannot overrun receive buffers or reuse a channel number
  * `Gensio.Mux.C73_buffer`: P, C, Q
  * `Gensio.Mux.C73_length`: P, C, Q
  * `Gensio.Mux.C73_new`: P, Q
  * Model of lib/gensio_mux.c; arbitrary operations from a fresh mux, no assumption on the peer. Found by mutation testing of the other mux theorems.
* **C74** (proved) Selector timers follow their discipline
  * `Gensio.Sel.C74_timers`: P, C, Q
  * `Gensio.Sel.C74_count`: P, C, Q
  * Thread-interleaving model of the selector over the pointer level heap; a step is a lock section. Waiting may end at any time.
* **C75** (proved) No due timer is left behind
  * `Gensio.Sel.C75_due`: P, C, Q
  * Same model; safety form: what a thread has done when it waits or leaves.
* **C76** (partial) An accepted stop with done handler gets its done handler exactly once
  * `Gensio.Sel.C76_count_partial`: P, C, Q
  * `Gensio.Sel.C76_violated`: P, C, Q
  * `Gensio.Sel.C76_dead`: P, C, Q
  * `Gensio.Sel.C76_restart_violated`: P, Q
  * Violated: a stop or free before the done handler is called loses it for ever; stop_with_done in the handler of a restarted timer returns ETIMEDOUT without stopping it. Proved: accepted stops = done calls + outstanding.
* **C77** (partial) A waiting selector thread wakes for every timer
  * `Gensio.Sel.C77_timers_partial`: P, C, Q
  * `Gensio.Sel.C77_done_violated`: P, Q
  * `Gensio.Sel.C77_restart_violated`: P, Q
  * Violated: stop_with_done wakes nobody; a timer restarted in its handler is queued without waking other waiting threads. Proved for a fixed pool of threads when stop_with_done is called while one of them does not wait.
* **C78** (proved) Each accepted runner is run exactly once
  * `Gensio.Sel.C78_runners`: P, C, Q
  * `Gensio.Sel.C78_count`: P, C, Q
  * Same model as C74.
* **C79** (proved) A queued runner wakes a waiting thread
  * `Gensio.Sel.C79_runners`: P, C, Q
  * `Gensio.Sel.C79_nowait`: P, C, Q
  * Same model as C74; that a signal wakes pselect is trusted.
* **C80** (partial) Handlers of a file descriptor keep to the protocol of their registration
  * `Gensio.SelFd.C80_partial`: P, C, Q
  * `Gensio.SelFd.C80_lost_violated`: P, Q
  * `Gensio.SelFd.C80_replace_violated`: P, Q
  * `Gensio.SelFd.C80_uaf_violated`: P, Q
  * Holds in runs in which handlers are set only while no handler of the descriptor runs and a registration is replaced only before a hang up. Otherwise a new registration is lost (handle_selector_call clears fdc->state), or released memory is used (end of sel_set_fd_handlers without the lock).
* **C81** (partial) Timeval arithmetic of the selector
  * `Gensio.Sel.C81_diff`: P, C, Q
  * `Gensio.Sel.C81_add_partial`: P, C, Q
  * `Gensio.Sel.C81_add_violated`: P, C, Q
  * diff_timeval proved; add_timeval violated when the microseconds sum to exactly a million, otherwise right.
* **C82** (partial) Synchronous accepts get each connection once
  * `Gensio.SyncAcc.C82_once`: P, Q
  * `Gensio.SyncAcc.C82_wait_partial`: P, C, Q
  * `Gensio.SyncAcc.C82_closed_violated`: P, Q
  * `Gensio.SyncAcc.C82_wait_violated`: P, Q
  * Each connection goes to one accept, in order, or is freed at shutdown (proved). Counterexamples: an accept is told GE_LOCALCLOSED when another one overtakes it; an interrupted accept leaves another waiting beside a connection.
* **C83** (partial) The epoll set agrees with the registrations and no enabled event is lost
  * `Gensio.SelFd.C83_partial`: P, C, Q
  * `Gensio.SelFd.C83_calm_partial`: P, C, Q
  * `Gensio.SelFd.C83_enabled`: P, Q
  * `Gensio.SelFd.C83_clear`: P, Q
  * `Gensio.SelFd.C83_write_violated`: P, Q
  * `Gensio.SelFd.C83_write2_violated`: P, Q
  * `Gensio.SelFd.C83_assert_violated`: P, Q
  * `Gensio.SelFd.C83_again_violated`: P, Q
  * Holds in the same runs for reading and exceptions, and for writing when there is no hang up or error. After a hang up writing is never reported; replacing handlers after a hang up, or setting them after a lost registration, fails an assertion.
* **C84** (partial) The descriptor layer reports each open and close exactly once
  * `Gensio.LlFd.C84_safe_partial`: P, C, Q
  * `Gensio.LlFd.C84_once_partial`: P, C, Q
  * `Gensio.LlFd.C84_order_partial`: P, C, Q
  * `Gensio.LlFd.C84_rest_partial`: P, C, Q
  * `Gensio.LlFd.C84_reopen_violated`: P
  * `Gensio.LlFd.C84_close_violated`: P
  * `Gensio.LlFd.C84_retry_violated`: P
  * `Gensio.LlFd.C84_assert_violated`: P
  * `Gensio.LlFd.C84_lost_violated`: P
  * `Gensio.LlFd.C84_disable_violated`: P
  * `Gensio.LlFd.C84_oob_violated`: P
  * Theorems are for all runs that keep the rules of `fair` (each rule is shown to be needed by a _violated theorem). Eventual reporting is shown as: nothing outstanding at rest; that the system comes to rest is not proved.
* **C85** (partial) The descriptor layer neither leaks nor reuses its structure and descriptors
  * `Gensio.LlFd.C85_dead_partial`: P, C, Q
  * `Gensio.LlFd.C85_freed_partial`: P, C, Q
  * `Gensio.LlFd.C85_desc_partial`: P, C, Q
  * `Gensio.LlFd.C85_leak_violated`: P
  * `Gensio.LlFd.C85_free_violated`: P
  * `Gensio.LlFd.C85_except_violated`: P
  * Theorems are for all runs that keep the rules of `fair` (each rule is shown to be needed by a _violated theorem). Eventual reporting is shown as: nothing outstanding at rest; that the system comes to rest is not proved.
* **C86** (partial) The descriptor layer delivers what it reads, once and in order, without overlapping callbacks
  * `Gensio.LlFd.C86_data_partial`: P, C, Q
  * `Gensio.LlFd.C86_excl_partial`: P, C, Q
  * `Gensio.LlFd.C86_handler_partial`: P, C, Q
  * Theorems are for all runs that keep the rules of `fair` (each rule is shown to be needed by a _violated theorem). Eventual reporting is shown as: nothing outstanding at rest; that the system comes to rest is not proved.
* **C87** (partial) Enabled callbacks of the descriptor layer are armed
  * `Gensio.LlFd.C87_armed_partial`: P, C, Q
  * `Gensio.LlFd.C87_open_violated`: P
  * Theorems are for all runs that keep the rules of `fair` (each rule is shown to be needed by a _violated theorem). Eventual reporting is shown as: nothing outstanding at rest; that the system comes to rest is not proved.
* **C88** (partial) Numbers in parameters are read as they are or refused
  * `Gensio.Pparm.C88_ds_partial`: P, C, Q
  * `Gensio.Pparm.C88_uint_partial`: P, C, Q
  * `Gensio.Pparm.C88_int_partial`: P, C, Q
  * `Gensio.Pparm.C88_drain_partial`: P, C, Q
  * `Gensio.Pparm.C88_perm_partial`: P, Q
  * `Gensio.Pparm.C88_negative_violated`: P, Q
  * `Gensio.Pparm.C88_large_violated`: P, Q
  * `Gensio.Pparm.C88_uint_violated`: P
  * `Gensio.Pparm.C88_int_violated`: P, Q
  * `Gensio.Pparm.C88_drain_violated`: P
  * `Gensio.Pparm.C88_perm_violated`: P
  * `Gensio.Pparm.C88_default_violated`: P
  * `Gensio.Pparm.C88_digits`: P
  * `Gensio.Pparm.C88_perm_bad`: P, Q
  * `Gensio.Pparm.C88_default_partial`: P, C, Q
  * Numbers that fit are read exactly and non-numbers are refused. The property is false for the code: negative and too large sizes are accepted as other numbers, ints out of range give a message but are accepted truncated, permissions and defaults are truncated.
* **C89** (partial) Times in parameters are read as the sum of their parts
  * `Gensio.Pparm.C89_sound_partial`: P, C, Q
  * `Gensio.Pparm.C89_time_partial`: P, C, Q
  * `Gensio.Pparm.C89_complete_partial`: P, C, Q
  * `Gensio.Pparm.C89_negative_violated`: P
  * `Gensio.Pparm.C89_overflow_violated`: P
  * `Gensio.Pparm.C89_large_violated`: P
  * Whatever is accepted is a time and the result is its length; decimal numbers with units are accepted if they fit. Missing: completeness for other bases. False for the code: negative nanoseconds, signed overflow, saturation.
* **C90** (proved) Keys, truth values, enumerations and modes have the documented syntax
  * `Gensio.Pparm.C90_value`: P
  * `Gensio.Pparm.C90_err`: P
  * `Gensio.Pparm.C90_bool`: P, Q
  * `Gensio.Pparm.C90_boolv`: P, Q
  * `Gensio.Pparm.C90_enum`: P, Q
  * `Gensio.Pparm.C90_mode`: P, Q
  * `Gensio.Pparm.C90_letters`: P, C, Q
  * For all texts, keys and tables.
* **C91** (partial) An address from a parameter is valid
  * `Gensio.Pparm.C91_addrs_partial`: P
  * `Gensio.Pparm.C91_addrs_violated`: P, Q
  * False for the code when a port is required and missing: success with a freed address; true otherwise. gensio_scan_network_port is represented by its result.
* **C92** (partial) A server only reports a peer as authenticated when it has seen what it asked for
  * `Gensio.Certauth.C92_authenticated_partial`: P, C, Q
  * `Gensio.Certauth.C92_result_violated`: P, Q
  * `Gensio.Certauth.C92_stale_violated`: P, Q
  * `Gensio.Certauth.C92_empty_violated`: P, Q
  * `Gensio.Certauth.C92_wrong_violated`: P, Q
  * `Gensio.Certauth.C92_twofa_violated`: P, Q
  * `Gensio.Certauth.C92_twofa_only_violated`: P, Q
  * `Gensio.Certauth.C92_unsigned`: P
  * The property is false in the code. Proved for all runs without the events that the code handles wrongly (a RESULT element from the client, a challenge response before the challenge, an empty password when one is required, a password or second factor that the application refuses or does not know); each of them is a bypass, shown by a concrete run.
* **C93** (partial) A peer rejected by the application is refused
  * `Gensio.Certauth.C93_rejected_partial`: P, C, Q
  * `Gensio.Certauth.C93_rejected_violated`: P, Q
  * Proved without require-password; with it a rejected user is authenticated by a password.
* **C94** (proved) A client only succeeds if the server said so
  * `Gensio.Certauth.C94_client_told`: P, C, Q
  * For every client and every run.
* **C95** (partial) Authentication messages are read the same however they are split, safely, with errors kept
  * `Gensio.Certauth.C95_message`: P, Q
  * `Gensio.Certauth.C95_split`: P, C, Q
  * `Gensio.Certauth.C95_safe_partial`: P, C, Q
  * `Gensio.Certauth.C95_boundary_violated`: P, Q
  * `Gensio.Certauth.C95_error_partial`: P, Q
  * `Gensio.Certauth.C95_error_violated`: P, Q
  * Whole messages and splits inside of a message are right. Data that ends just after an element makes the filter read behind the data (for every message); that is the only way reading goes wrong. An error is forgotten when a certificate or a challenge response follows in the same data.
* **C96** (partial) Authentication output stays in its buffer and reaches the peer as written
  * `Gensio.Certauth.C96_bound`: P, Q
  * `Gensio.Certauth.C96_output_partial`: P, Q
  * `Gensio.Certauth.C96_output_violated`: P
  * The bound holds always. Output is exact if no message is made while another is only partly sent; otherwise write_buf_pos points behind the new message.
* **C97** (partial) A certauth gensio can be opened again after it is closed
  * `Gensio.Certauth.C97_cleanup_partial`: P, Q
  * `Gensio.Certauth.C97_reopen_violated`: P, Q
  * Credentials are gone after cleanup, but state is not reset: every second open fails an assertion.
* **C98** (partial) The application is given the password that the client sent
  * `Gensio.Certauth.C98_password_partial`: P, Q
  * `Gensio.Certauth.C98_length_violated`: P, Q
  * limited_strlen does not advance: the application gets all 100 bytes; the part before the first zero is the password.
* **C99** (proved) AX.25 sequence arithmetic is arithmetic modulo the window
  * `Gensio.Ax25.C99_sequence_arithmetic`: P, C, Q
  * `Gensio.Ax25.C99_ack_within_queue`: P, Q
