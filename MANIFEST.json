{
 "claims": [
  {
   "property": "C01",
   "status": "proved",
   "theorems": [
    "Gensio.CircBuf.C01_circbuf_fifo"
   ],
   "note": "Refinement of every operation history to a bounded FIFO, no UB."
  },
  {
   "property": "C02",
   "status": "proved",
   "theorems": [
    "Gensio.CircBuf.C02_circbuf_bounds"
   ],
   "note": "Every reachable state."
  },
  {
   "property": "C03",
   "status": "partial",
   "theorems": [
    "Gensio.Buffer.C03_buffer_queue_partial",
    "Gensio.Buffer.C03_buffer_count_nowrap_partial",
    "Gensio.Buffer.C03_buffer_count_violated"
   ],
   "note": "Queue behaviour proved; the returned count is wrong after a wrap (lib/buffer.c:88-94), shown by witness."
  },
  {
   "property": "C04",
   "status": "proved",
   "theorems": [
    "Gensio.Codec.C04_u32",
    "Gensio.Codec.C04_u16"
   ],
   "note": "Codecs are inverse of each other and big endian"
  },
  {
   "property": "C05",
   "status": "proved",
   "theorems": [
    "Gensio.Args.C05_quote_roundtrip",
    "Gensio.Args.C05_quote_scan_args",
    "Gensio.Args.C05_quote_alloc",
    "Gensio.Args.C05_argv_snprintf"
   ],
   "note": "Quoting round trip through the splitter and the gensio string parser"
  },
  {
   "property": "C06",
   "status": "proved",
   "theorems": [
    "Gensio.Args.C06_splitter_total",
    "Gensio.Args.C06_scan_args_total",
    "Gensio.Args.C06_plain_split",
    "Gensio.Args.C06_words_exist"
   ],
   "note": "Splitter always ends with a result or an error"
  },
  {
   "property": "C07",
   "status": "partial",
   "theorems": [
    "Gensio.Args.C07_octal",
    "Gensio.Args.C07_hex_partial",
    "Gensio.Args.C07_hex_violated"
   ],
   "note": "Octal escapes and decimal-digit hex escapes are right; hex escapes with letters are decoded wrongly (violated, witness for all such pairs)"
  },
  {
   "property": "C08",
   "status": "proved",
   "theorems": [
    "Gensio.LList.C08_list_sequence",
    "Gensio.LList.C08_misuse_caught"
   ],
   "note": "Refinement of the pointer lists to sequences"
  },
  {
   "property": "C09",
   "status": "proved",
   "theorems": [
    "Gensio.CntStr.C09_cntstr",
    "Gensio.CntStr.C09_last_release_frees",
    "Gensio.CntStr.C09_wrap_violated"
   ],
   "note": "Assumes fewer than 2^32 references to one string; C09_wrap_violated shows that bound is needed"
  },
  {
   "property": "C10",
   "status": "proved",
   "theorems": [
    "Gensio.Heap.C10_heap",
    "Gensio.Heap.C10_timers",
    "Gensio.Heap.C10_winTimers"
   ],
   "note": "Pointer level model of heap.h; any proper sequence of add, remove and key changes, any total comparison."
  },
  {
   "property": "C100",
   "status": "partial",
   "theorems": [
    "Gensio.Ax25.C100_write_in_bounds_violated",
    "Gensio.Ax25.C100_write_content_partial"
   ],
   "note": "Violated: a piece before the last that passes the packet size makes the length left wrap, and the rest is copied past the end of the buffer. Proved: every write whose pieces before the last fit is stored exactly."
  },
  {
   "property": "C101",
   "status": "partial",
   "theorems": [
    "Gensio.Ax25.C101_raw_in_bounds_violated",
    "Gensio.Ax25.C101_raw_content_partial"
   ],
   "note": "Violated: data longer than max_write_size is copied whole into memory allocated for the truncated length. Proved: data up to max_write_size."
  },
  {
   "property": "C102",
   "status": "partial",
   "theorems": [
    "Gensio.Ax25.C102_peer_cannot_break_violated",
    "Gensio.Ax25.C102_fallback_window_violated",
    "Gensio.Ax25.C102_read_error_after_close_violated",
    "Gensio.Ax25.C102_peer_cannot_break_partial"
   ],
   "note": "Violated three ways: XID parameter 6 sets the window, fallback to SABM sets a window of 2 with a queue of 1, a read callback that fails after the close removes the channel twice. Proved for all other runs by an invariant over all events."
  },
  {
   "property": "C103",
   "status": "partial",
   "theorems": [
    "Gensio.Ax25.C103_window_zero_violated",
    "Gensio.Ax25.C103_size_violated",
    "Gensio.Ax25.C103_window_modulo_violated",
    "Gensio.Ax25.C103_window_partial",
    "Gensio.Ax25.C103_group_partial",
    "Gensio.Ax25.C103_bad_length_partial"
   ],
   "note": "Violated: parameter 6 of an XID sets the window instead of the packet size (window 0), the packet size is never lowered, the window can reach the modulus. Proved: the XID made by this library sets the window to the minimum; XIDs with parameters of 1 to 4 bytes are used parameter by parameter and answered, others are given up."
  },
  {
   "property": "C104",
   "status": "partial",
   "theorems": [
    "Gensio.Ax25.C104_in_order_once_partial",
    "Gensio.Ax25.C104_duplicate_ua_violated",
    "Gensio.Ax25.C104_taken"
   ],
   "note": "Invariant over both channels and the frames in flight, with ghost histories. Violated with ign_emb_ua off by a second UA. Missing: repeated, reordered or changed frames, a window of 1."
  },
  {
   "property": "C105",
   "status": "partial",
   "theorems": [
    "Gensio.Ax25.C105_clean_close_partial",
    "Gensio.Ax25.C105_stored_data_lost_violated",
    "Gensio.Ax25.C105_drain_cut_short_violated"
   ],
   "note": "Violated: data stored at the receiver when the DISC arrives is dropped; a second UA ends the wait of a close for acknowledgements. Proved for a sender with nothing unacknowledged and a receiver with nothing stored."
  },
  {
   "property": "C106",
   "status": "proved",
   "theorems": [
    "Gensio.Ax25.C106_frame_roundtrip",
    "Gensio.Ax25.C106_read_inside",
    "Gensio.Ax25.C106_corrupted_dropped"
   ],
   "note": "Frames as bytes: control field in both modes, command bits in the addresses, CRC; the lookup of the channel is represented by its result. Reading inside the packet is about the addresses and control field; the report is C107."
  },
  {
   "property": "C107",
   "status": "partial",
   "theorems": [
    "Gensio.Ax25.C107_empty_ui_violated",
    "Gensio.Ax25.C107_unnumbered_overread_violated",
    "Gensio.Ax25.C107_ui_partial"
   ],
   "note": "Violated: a UI frame without a PID is reported with 4294967295 bytes; every unnumbered frame without content makes the report code read a byte after the packet. Partial: UI frames with a PID."
  },
  {
   "property": "C108",
   "status": "partial",
   "theorems": [
    "Gensio.Ax25Timer.C108_safe",
    "Gensio.Ax25Timer.C108_t1_backed_partial",
    "Gensio.Ax25Timer.C108_t1_fires_partial",
    "Gensio.Ax25Timer.C108_t3_lost_violated",
    "Gensio.Ax25Timer.C108_t2_lost_violated"
   ],
   "note": "Violated: when the handler runs while T1 is stopped, T2 and T3 keep running without an OS timer (every connection that is opened and then idle). Partial: T1 always has its timer and is acted on; no assertion fails in any order."
  },
  {
   "property": "C109",
   "status": "partial",
   "theorems": [
    "Gensio.Ax25Timer.C109_refs_partial",
    "Gensio.Ax25Timer.C109_ua_leak_violated",
    "Gensio.Ax25Timer.C109_reopen_leak_violated",
    "Gensio.Ax25Timer.C109_leak_stays"
   ],
   "note": "Violated: a second UA (ign_emb_ua off) and an open from the close callback inside the timeout handler leave a reference that is never released. Partial: exact references for all other runs."
  },
  {
   "property": "C11",
   "status": "proved",
   "theorems": [
    "Gensio.Crc.C11_crc16",
    "Gensio.Crc.C11_ccitt",
    "Gensio.Crc.C11_value_unique"
   ],
   "note": "Table loops equal polynomial long division for every init and message"
  },
  {
   "property": "C110",
   "status": "partial",
   "theorems": [
    "Gensio.Ax25Timer.C110_smooth_partial",
    "Gensio.Ax25Timer.C110_idle_growth_violated",
    "Gensio.Ax25Timer.C110_idle_hours_violated",
    "Gensio.Ax25Timer.C110_fast_zero_violated",
    "Gensio.Ax25Timer.C110_zero_stays_violated",
    "Gensio.Ax25Timer.C110_backoff_violated"
   ],
   "note": "Violated: every frame received while T1 does not run makes T1 longer by an eighth (60 frames: over 2 hours); answers within a millisecond bring it to 0 for good; from the 26th retry it is 0 and at the 30th undefined. Partial: the smoothing formula while T1 runs."
  },
  {
   "property": "C111",
   "status": "partial",
   "theorems": [
    "Gensio.Ax25.C111_no_retries_violated",
    "Gensio.Ax25.C111_gives_up_partial"
   ],
   "note": "Violated: retries=0 polls for ever. Partial: at least one retry configured, all data sent, T1/T2/sending only."
  },
  {
   "property": "C112",
   "status": "partial",
   "theorems": [
    "Gensio.Keepopen.C112_no_fault_partial",
    "Gensio.Keepopen.C112_free_open_violated",
    "Gensio.Keepopen.C112_free_closing_violated",
    "Gensio.Keepopen.C112_close_opening_violated",
    "Gensio.Keepopen.C112_close_log_violated",
    "Gensio.Keepopen.C112_disable_violated",
    "Gensio.Keepopen.C112_free_callback_violated"
   ],
   "note": "Proved for steps that are clean: the user does not free an open or closing gensio or one in some callbacks, does not close in an unlocked log, and the child does not report an open after it was closed. Each of these exceptions is a counterexample in the code: keepn_free of an open gensio takes its own lock again (and otherwise fails an assertion later), freeing a closing one fails an assertion, and so on."
  },
  {
   "property": "C113",
   "status": "partial",
   "theorems": [
    "Gensio.Keepopen.C113_reports_partial",
    "Gensio.Keepopen.C113_close_ends_partial",
    "Gensio.Keepopen.C113_close_lost_violated",
    "Gensio.Keepopen.C113_refused_close_violated"
   ],
   "note": "Proved for clean steps and a child that does not refuse to close. A close from the open callback of an open that failed at once is accepted and lost; a close the child refuses returns the error and is reported all the same."
  },
  {
   "property": "C114",
   "status": "proved",
   "theorems": [
    "Gensio.Keepopen.C114_stays_open",
    "Gensio.Keepopen.C114_reopens"
   ],
   "note": "For all sequences without a close, free or disable of the user: no fault, and while the child is not open some step of the child or timer is to come; if these do not fail the child is open after at most 62 of them."
  },
  {
   "property": "C115",
   "status": "partial",
   "theorems": [
    "Gensio.Keepopen.C115_refs_partial",
    "Gensio.Keepopen.C115_free_ends_partial",
    "Gensio.Keepopen.C115_freed_retries_violated"
   ],
   "note": "Proved for clean steps. A gensio freed in the open callback of an open that failed at once goes on trying to open its child."
  },
  {
   "property": "C116",
   "status": "proved",
   "theorems": [
    "Gensio.Keepopen.C116_enables"
   ],
   "note": "For all steps, also those that are not clean."
  },
  {
   "property": "C117",
   "status": "partial",
   "theorems": [
    "Gensio.Keepopen.C117_write_partial",
    "Gensio.Keepopen.C117_null_count_violated"
   ],
   "note": "Proved for a caller that gives a count; a NULL count, which the manual allows, is written through when the child fails."
  },
  {
   "property": "C118",
   "status": "partial",
   "theorems": [
    "Gensio.Keepopen.C118_error_kept_partial",
    "Gensio.Keepopen.C118_restored_partial",
    "Gensio.Keepopen.C118_logged_violated"
   ],
   "note": "The error of the child is kept in last_child_err and a later success is logged as restored, but what is logged for an error is the answer of gensio_close, no error if it was accepted."
  },
  {
   "property": "C119",
   "status": "partial",
   "theorems": [
    "Gensio.Acc.C119_released",
    "Gensio.Acc.C119_no_fault_partial",
    "Gensio.Acc.C119_stale_flag_violated"
   ],
   "note": "Release is proved in all runs; no faults for runs without a start after a shutdown that waited for a callback, an enable without a callback on a child accepter while one is awaited, and a shutdown the child refuses.  call_shutdown_done is never cleared (counterexample)."
  },
  {
   "property": "C12",
   "status": "proved",
   "theorems": [
    "Gensio.Crc.C12_msgdelim",
    "Gensio.Crc.C12_hdlc",
    "Gensio.Crc.C12_msgdelim_accepts",
    "Gensio.Crc.C12_hdlc_accepts"
   ],
   "note": "Burst on the frame before escaping/stuffing, same length"
  },
  {
   "property": "C120",
   "status": "partial",
   "theorems": [
    "Gensio.Acc.C120_told_once_partial",
    "Gensio.Acc.C120_told_last_partial",
    "Gensio.Acc.C120_told_partial",
    "Gensio.Acc.C120_early_violated",
    "Gensio.Acc.C120_refused_violated"
   ],
   "note": "Proved for calm runs (see C119); counterexamples: reported early after a restart; a refused shutdown reported after the free."
  },
  {
   "property": "C121",
   "status": "proved",
   "theorems": [
    "Gensio.Acc.C121_connections"
   ],
   "note": "All runs."
  },
  {
   "property": "C122",
   "status": "partial",
   "theorems": [
    "Gensio.Acc.C122_stays_open_partial",
    "Gensio.Acc.C122_closed_violated"
   ],
   "note": "Proved for calm runs (see C119); after a shutdown that waited for a callback and a restart, the next callback closes the upper half only."
  },
  {
   "property": "C123",
   "status": "partial",
   "theorems": [
    "Gensio.Acc.C123_told_once",
    "Gensio.Acc.C123_accepted_partial",
    "Gensio.Acc.C123_null_violated",
    "Gensio.Acc.C123_stuck_violated"
   ],
   "note": "Once: all runs.  Accepted: accepters with sockets only; a child accepter that refused one call refuses all, and a call without a callback clears the pointer that is called (counterexamples)."
  },
  {
   "property": "C124",
   "status": "partial",
   "theorems": [
    "Gensio.Acc.C124_shutdown",
    "Gensio.Acc.C124_control_partial",
    "Gensio.Acc.C124_disable_partial",
    "Gensio.Acc.C124_closed_violated",
    "Gensio.Acc.C124_closing_violated"
   ],
   "note": "Shutdown: all orders.  Questions: while open; during and after a shutdown they use a NULL pointer (counterexamples)."
  },
  {
   "property": "C125",
   "status": "partial",
   "theorems": [
    "Gensio.Dgram.C125_datagram_partial",
    "Gensio.Dgram.C125_datagram_again_violated",
    "Gensio.Dgram.C125_datagram_content_violated",
    "Gensio.Dgram.C125_aux_overflow_violated"
   ],
   "note": "A user that takes part of a datagram is given its beginning again (read_data, not read_data + data_pos), and auxi is not reset on a retry, so that auxmem overflows. Proved for users that take all at once."
  },
  {
   "property": "C126",
   "status": "partial",
   "theorems": [
    "Gensio.Dgram.C126_no_fault_partial",
    "Gensio.Dgram.C126_write_enable_violated",
    "Gensio.Dgram.C126_reopen_violated",
    "Gensio.Dgram.C126_enable_callback_violated",
    "Gensio.Dgram.C126_no_fault_violated"
   ],
   "note": "Three kinds of faults; without what leads to them there is none, in all interleavings."
  },
  {
   "property": "C127",
   "status": "partial",
   "theorems": [
    "Gensio.Dgram.C127_references_partial",
    "Gensio.Dgram.C127_released_partial",
    "Gensio.Dgram.C127_lost_reference_violated",
    "Gensio.Dgram.C127_lost_connection_violated"
   ],
   "note": "The references are counted in all runs; one is lost by a second enable, and a connection by a deferred operation of its accepter."
  },
  {
   "property": "C128",
   "status": "partial",
   "theorems": [
    "Gensio.Dgram.C128_read_count_partial",
    "Gensio.Dgram.C128_read_stuck_violated"
   ],
   "note": "The read disable count is right in all runs; the one of the read handler is never given back if no datagram handler runs afterwards, so reading stops for ever."
  },
  {
   "property": "C129",
   "status": "partial",
   "theorems": [
    "Gensio.Dgram.C129_close_once_partial",
    "Gensio.Dgram.C129_close_done_partial",
    "Gensio.Dgram.C129_lost_close_violated",
    "Gensio.Dgram.C129_lost_close_shutdown_violated"
   ],
   "note": "At most once in all runs; lost in deferred read callbacks and shutdown callbacks, otherwise exactly once."
  },
  {
   "property": "C13",
   "status": "proved",
   "theorems": [
    "Gensio.Telnet.C13_receive",
    "Gensio.Telnet.C13_xmit",
    "Gensio.Telnet.C13_transparent",
    "Gensio.Telnet.C13_progress"
   ],
   "note": "all streams, all chunkings"
  },
  {
   "property": "C130",
   "status": "partial",
   "theorems": [
    "Gensio.Dgram.C130_delivery_partial",
    "Gensio.Dgram.C130_misdelivery_violated"
   ],
   "note": "With two sockets the data of one datagram can be given to the connection of another; otherwise right."
  },
  {
   "property": "C131",
   "status": "partial",
   "theorems": [
    "Gensio.Dgram.C131_closed_partial",
    "Gensio.Dgram.C131_restart_violated"
   ],
   "note": "The flag closed is never cleared: a start after a shutdown succeeds but no connection is ever taken."
  },
  {
   "property": "C132",
   "status": "partial",
   "theorems": [
    "Gensio.Dgram.C132_extrainfo_partial",
    "Gensio.Dgram.C132_mcast_loop_violated",
    "Gensio.Dgram.C132_mcast_ttl_violated",
    "Gensio.Dgram.C132_extrainfo_violated",
    "Gensio.Dgram.C132_str_to_gensio_violated"
   ],
   "note": "MCAST_LOOP is set inverted, a get of MCAST_TTL sets it, EXTRAINFO works for one connection only and leaves the lock held on errors, a check lacks its statement."
  },
  {
   "property": "C133",
   "status": "partial",
   "theorems": [
    "Gensio.Dgram.C133_write_count_partial",
    "Gensio.Dgram.C133_write_starvation_violated"
   ],
   "note": "The count is right if writing is not changed while opening; only the first connection in the list is ever told."
  },
  {
   "property": "C134",
   "status": "proved",
   "theorems": [
    "Gensio.Dgram.C134_enable_once"
   ],
   "note": "All runs."
  },
  {
   "property": "C135",
   "status": "partial",
   "theorems": [
    "Gensio.Dgram.C135_once_partial",
    "Gensio.Dgram.C135_lost_shutdown_violated",
    "Gensio.Dgram.C135_lost_open_violated"
   ],
   "note": "At most once in all runs; a shutdown in a new connection callback and an open closed early are never reported."
  },
  {
   "property": "C136",
   "status": "partial",
   "theorems": [
    "Gensio.Rfc2217.C136_at_most_once_partial",
    "Gensio.Rfc2217.C136_free_violated",
    "Gensio.Rfc2217.C136_reopen_violated",
    "Gensio.Rfc2217.C136_closed_accepts_violated",
    "Gensio.Rfc2217.C136_not_allowed_partial"
   ],
   "note": "Proved over all runs: accepted = answered + waiting + dropped, so no callback is made twice. Missing: each is made at all, which is false: freeing drops requests, closing stops their timer for good, and a closed gensio accepts requests (counterexamples)."
  },
  {
   "property": "C137",
   "status": "partial",
   "theorems": [
    "Gensio.Rfc2217.C137_timeout_partial",
    "Gensio.Rfc2217.C137_not_before_partial",
    "Gensio.Rfc2217.C137_late_violated",
    "Gensio.Rfc2217.C137_zero_violated",
    "Gensio.Rfc2217.C137_rounded_up_partial"
   ],
   "note": "Proved: reported after at most its time plus one tick per request before it, while not closed; never before its time. Missing: exactly at its time, which is false when an earlier request expires in the same tick; zero times never expire (counterexamples)."
  },
  {
   "property": "C138",
   "status": "partial",
   "theorems": [
    "Gensio.Rfc2217.C138_settings_partial",
    "Gensio.Rfc2217.C138_states_partial",
    "Gensio.Rfc2217.C138_flow_state_violated",
    "Gensio.Rfc2217.C138_masks_partial"
   ],
   "note": "Proved for all one byte controls through the telnet encoding and parser for every way to cut the stream; baud rates and the signature are C140 and C148. False for the flow state (counterexample)."
  },
  {
   "property": "C139",
   "status": "partial",
   "theorems": [
    "Gensio.Rfc2217.C139_answer_partial",
    "Gensio.Rfc2217.C139_server_partial",
    "Gensio.Rfc2217.C139_stale_violated"
   ],
   "note": "Proved for all one byte controls in all states reached by runs. Missing: an answer that comes after its request timed out completes the next one (counterexample)."
  },
  {
   "property": "C14",
   "status": "partial",
   "theorems": [
    "Gensio.Telnet.C14_terminates_partial",
    "Gensio.Telnet.C14_ack_silent_partial",
    "Gensio.Telnet.C14_ack_answered_violated"
   ],
   "note": "termination proved with explicit bound; the no-answer-to-acknowledgement part is violated by the RFC 2217 server (sent_do not set)"
  },
  {
   "property": "C140",
   "status": "partial",
   "theorems": [
    "Gensio.Rfc2217.C140_baud_partial",
    "Gensio.Rfc2217.C140_set_partial",
    "Gensio.Rfc2217.C140_shift_violated",
    "Gensio.Rfc2217.C140_cisco_violated",
    "Gensio.Rfc2217.C140_bounds_partial"
   ],
   "note": "Proved for rates below 2^31 and the table of Cisco. Received first bytes of 128 or more shift into the sign bit, and a rate Cisco has no value for is sent as a question (counterexamples)."
  },
  {
   "property": "C141",
   "status": "partial",
   "theorems": [
    "Gensio.TelnetFilt.C141_skipped_partial",
    "Gensio.TelnetFilt.C141_mark_violated",
    "Gensio.TelnetFilt.C141_mark_missed_violated",
    "Gensio.TelnetFilt.C141_abandoned_partial"
   ],
   "note": "Proved: all before the mark is discarded, in any pieces. The mark itself is delivered as data, and a mark that overtakes its IAC makes everything after it be discarded (counterexamples)."
  },
  {
   "property": "C142",
   "status": "partial",
   "theorems": [
    "Gensio.Rfc2217.C142_window_partial",
    "Gensio.Rfc2217.C142_255_violated",
    "Gensio.Rfc2217.C142_data_violated"
   ],
   "note": "Proved for sizes below 65536 with no byte of 255, which is not escaped (counterexamples)."
  },
  {
   "property": "C143",
   "status": "partial",
   "theorems": [
    "Gensio.TelnetFilt.C143_alloc_partial",
    "Gensio.TelnetFilt.C143_twice_violated"
   ],
   "note": "Proved for the first allocations; a failure in the raw allocation frees the tables twice (counterexample for each)."
  },
  {
   "property": "C144",
   "status": "partial",
   "theorems": [
    "Gensio.Rfc2217.C144_mode_partial",
    "Gensio.Rfc2217.C144_default_violated"
   ],
   "note": "Proved if a mode argument is given or no default is configured; false with a default of server."
  },
  {
   "property": "C145",
   "status": "partial",
   "theorems": [
    "Gensio.TelnetFilt.C145_buffer_partial",
    "Gensio.TelnetFilt.C145_position_violated",
    "Gensio.TelnetFilt.C145_reopen_stuck_violated"
   ],
   "note": "Proved over all runs in which nothing is written between an error and the close, and a fresh state after a reopen with RFC 2217 or RFC 1073. False otherwise (counterexamples)."
  },
  {
   "property": "C146",
   "status": "partial",
   "theorems": [
    "Gensio.Rfc2217.C146_refused_partial",
    "Gensio.Rfc2217.C146_number_violated"
   ],
   "note": "Proved for names and for numbers out of range after conversion; texts that are no numbers and numbers beyond 32 bits are accepted (counterexample)."
  },
  {
   "property": "C147",
   "status": "partial",
   "theorems": [
    "Gensio.Rfc2217.C147_get_partial",
    "Gensio.Rfc2217.C147_mask_violated"
   ],
   "note": "Proved for all controls but the two masks, for which asking sets the mask to 0 (counterexample)."
  },
  {
   "property": "C148",
   "status": "partial",
   "theorems": [
    "Gensio.Rfc2217.C148_signature_partial",
    "Gensio.Rfc2217.C148_cut_violated",
    "Gensio.Rfc2217.C148_lost_violated"
   ],
   "note": "Proved for at most 27 bytes without NUL; longer ones are cut by the receiver and those of 251 bytes or more never sent (counterexamples)."
  },
  {
   "property": "C149",
   "status": "partial",
   "theorems": [
    "Gensio.Echo.C149_echo",
    "Gensio.Echo.C149_offered",
    "Gensio.Echo.C149_reopen_violated"
   ],
   "note": "Order and completeness for all runs (C149_echo, C149_offered). Not for reopens: what was not read before a close is read after the next open (C149_reopen_violated)."
  },
  {
   "property": "C15",
   "status": "proved",
   "theorems": [
    "Gensio.Telnet.C15_parser_in_bounds"
   ],
   "note": ""
  },
  {
   "property": "C150",
   "status": "proved",
   "theorems": [
    "Gensio.Echo.C150_memory"
   ],
   "note": "All runs. Allocation failures and echon_disable are not modelled."
  },
  {
   "property": "C151",
   "status": "partial",
   "theorems": [
    "Gensio.Echo.C151_reported_partial",
    "Gensio.Echo.C151_result_violated",
    "Gensio.Echo.C151_result_read_violated"
   ],
   "note": "Reported once, in order, for all runs without a free. The result can be wrong: the variable err is not reset at the label restart."
  },
  {
   "property": "C152",
   "status": "partial",
   "theorems": [
    "Gensio.Echo.C152_awake_partial",
    "Gensio.Echo.C152_error_violated",
    "Gensio.Echo.C152_end_violated"
   ],
   "note": "For runs in which no callback gives an error and no close comes during an open. Violated otherwise, and for the end of data with noecho."
  },
  {
   "property": "C153",
   "status": "partial",
   "theorems": [
    "Gensio.FileIo.C153_written_partial",
    "Gensio.FileIo.C153_dropped_partial",
    "Gensio.FileIo.C153_count_violated",
    "Gensio.FileIo.C153_empty_violated"
   ],
   "note": "With an output file, and without one if all parts have the same length. Violated: sg->buflen is added for every part; an empty write is reported as GE_REMCLOSE."
  },
  {
   "property": "C154",
   "status": "partial",
   "theorems": [
    "Gensio.FileIo.C154_read_partial",
    "Gensio.FileIo.C154_end_partial",
    "Gensio.FileIo.C154_twice_violated",
    "Gensio.FileIo.C154_reopen_violated",
    "Gensio.FileIo.C154_stale_violated",
    "Gensio.FileIo.C154_error_violated"
   ],
   "note": "For operations that do not overlap and one open. Violated by two operations at once (same bytes twice, others dropped), by reopens (read_err and data_pending_len are kept) and by errors of write callbacks."
  },
  {
   "property": "C155",
   "status": "partial",
   "theorems": [
    "Gensio.FileIo.C155_descriptors_partial",
    "Gensio.FileIo.C155_open_violated",
    "Gensio.FileIo.C155_free_violated"
   ],
   "note": "If output files can be opened and an open gensio is not freed. Violated: the input file is leaked if the output file cannot be opened; free closes nothing."
  },
  {
   "property": "C156",
   "status": "partial",
   "theorems": [
    "Gensio.FileIo.C156_memory",
    "Gensio.FileIo.C156_silent_partial",
    "Gensio.FileIo.C156_after_free_violated"
   ],
   "note": "Memory for all runs; silence only if nothing is scheduled or running at the free, since the state is set to closed only then."
  },
  {
   "property": "C157",
   "status": "partial",
   "theorems": [
    "Gensio.FileIo.C157_move_partial",
    "Gensio.FileIo.C157_overlap_violated"
   ],
   "note": "If all, at least half, or nothing is taken. Violated: memcpy with overlap otherwise."
  },
  {
   "property": "C158",
   "status": "partial",
   "theorems": [
    "Gensio.FileIo.C158_reported",
    "Gensio.FileIo.C158_alone_partial",
    "Gensio.FileIo.C158_close_violated"
   ],
   "note": "Once and in order for all runs; alone only if operations do not overlap, which the code does not ensure."
  },
  {
   "property": "C159",
   "status": "proved",
   "theorems": [
    "Gensio.FileIo.C159_awake"
   ],
   "note": "All runs, for reads; for writes unless a callback gave an error."
  },
  {
   "property": "C16",
   "status": "partial",
   "theorems": [
    "Gensio.Msgdelim.C16_send",
    "Gensio.Msgdelim.C16_delivery_partial",
    "Gensio.Msgdelim.C16_progress",
    "Gensio.Msgdelim.C16_first_message_lost_violated"
   ],
   "note": "proved for messages that fit the allocated receive buffer with their check value; violated after GE_TOOBIG on the first write or after reopen (initial separator lost)"
  },
  {
   "property": "C160",
   "status": "partial",
   "theorems": [
    "Gensio.AddrInfo.C160_equal_partial",
    "Gensio.AddrInfo.C160_equivalence",
    "Gensio.AddrInfo.C160_scope_violated",
    "Gensio.AddrInfo.C160_path_violated",
    "Gensio.AddrInfo.C160_lengths"
   ],
   "note": "Proved for all addresses with the usual lengths, the scope left out of what is named. Counterexamples: the scope of an IPv6 address is ignored; a path made by gensio_addr_create is not equal to the same path read from a string."
  },
  {
   "property": "C161",
   "status": "partial",
   "theorems": [
    "Gensio.AddrInfo.C161_v4",
    "Gensio.AddrInfo.C161_v6",
    "Gensio.AddrInfo.C161_v6_in_v4",
    "Gensio.AddrInfo.C161_v4_in_v6_partial",
    "Gensio.AddrInfo.C161_present",
    "Gensio.AddrInfo.C161_zero_violated",
    "Gensio.AddrInfo.C161_mapped_violated"
   ],
   "note": "Proved for masks from 1 to the width; an IPv4 address against an IPv6 entry for masks above 96. Counterexamples: the mask 0 covers one address only; ::ffff:0:0/96 does not cover an IPv4 address given as such."
  },
  {
   "property": "C162",
   "status": "partial",
   "theorems": [
    "Gensio.AddrInfo.C162_scan",
    "Gensio.AddrInfo.C162_firsts",
    "Gensio.AddrInfo.C162_cat_partial",
    "Gensio.AddrInfo.C162_masks_violated",
    "Gensio.AddrInfo.C162_scope_violated",
    "Gensio.AddrInfo.C162_empty_violated"
   ],
   "note": "Proved for all lists getaddrinfo can give, and for concatenations in careful use. Counterexamples: masks are ignored, so a wider subnet after a narrower one is dropped; so is one of two scopes; an empty first address hides the second."
  },
  {
   "property": "C163",
   "status": "partial",
   "theorems": [
    "Gensio.AddrInfo.C163_memory_partial",
    "Gensio.AddrInfo.C163_others_partial",
    "Gensio.AddrInfo.C163_dup_partial",
    "Gensio.AddrInfo.C163_cat_self_violated",
    "Gensio.AddrInfo.C163_cat_made_violated",
    "Gensio.AddrInfo.C163_cat_argument_violated",
    "Gensio.AddrInfo.C163_link_violated",
    "Gensio.AddrInfo.C163_copy_violated"
   ],
   "note": "Proved for runs in which a duplicate met in a concatenation is in a list from getaddrinfo or a never shared one, and the two allocations whose failures are not handled succeed; all other allocations may fail. Counterexamples for both conditions."
  },
  {
   "property": "C164",
   "status": "partial",
   "theorems": [
    "Gensio.AddrInfo.C164_iterate",
    "Gensio.AddrInfo.C164_next_partial",
    "Gensio.AddrInfo.C164_equal_all",
    "Gensio.AddrInfo.C164_next_empty_violated",
    "Gensio.AddrInfo.C164_current_violated",
    "Gensio.AddrInfo.C164_first"
   ],
   "note": "Proved for lists without empty items. Counterexamples: next past an empty item, and the comparison of current addresses of an empty address."
  },
  {
   "property": "C165",
   "status": "partial",
   "theorems": [
    "Gensio.AddrInfo.C165_mask_partial",
    "Gensio.AddrInfo.C165_large_violated",
    "Gensio.AddrInfo.C165_name_violated",
    "Gensio.AddrInfo.C165_family_violated",
    "Gensio.AddrInfo.C165_no_slash"
   ],
   "note": "Proved for numbers below 2^32, for IPv6 and for numeric addresses announced by ipv4. Counterexamples: 2^32 is taken as 0, a mask of a name wraps at 256, an IPv4 number without ipv4 is checked against 128."
  },
  {
   "property": "C166",
   "status": "partial",
   "theorems": [
    "Gensio.AddrInfo.C166_roundtrip_partial",
    "Gensio.AddrInfo.C166_room",
    "Gensio.AddrInfo.C166_set_port_partial",
    "Gensio.AddrInfo.C166_port_violated",
    "Gensio.AddrInfo.C166_ax25_violated",
    "Gensio.AddrInfo.C166_scope",
    "Gensio.AddrInfo.C166_path"
   ],
   "note": "Proved for ports below 65536 and paths without zero bytes. Counterexamples: larger ports wrap; reading the data of an AX.25 address through gensio_addr_get_data calls NULL."
  },
  {
   "property": "C167",
   "status": "partial",
   "theorems": [
    "Gensio.Conacc.C167_careful_partial",
    "Gensio.Conacc.C167_double_close_violated",
    "Gensio.Conacc.C167_disable_connection_violated",
    "Gensio.Conacc.C167_enable_shutdown_violated",
    "Gensio.Conacc.C167_disable_enable_violated",
    "Gensio.Conacc.C167_shutdown_in_open_violated",
    "Gensio.Conacc.C167_shutdown_timer_violated",
    "Gensio.Conacc.C167_control_violated"
   ],
   "note": "Proved for careful users; false otherwise: second close, disable of a connection, enable then shutdown while waiting, disable then enable while opening, shutdown while an open is reported or the timer goes off, and a control while a connection is given up."
  },
  {
   "property": "C168",
   "status": "partial",
   "theorems": [
    "Gensio.Conacc.C168_keeps_trying_partial",
    "Gensio.Conacc.C168_tries_again_partial",
    "Gensio.Conacc.C168_enable_ready_violated",
    "Gensio.Conacc.C168_failed_enable_violated"
   ],
   "note": "Proved for careful users who do not enable an accepter that has a connection; enabling one disables it, and a failed enable leaves it stuck."
  },
  {
   "property": "C169",
   "status": "partial",
   "theorems": [
    "Gensio.Conacc.C169_enable_partial",
    "Gensio.Conacc.C169_enable_pending_partial",
    "Gensio.Conacc.C169_shutdown_partial",
    "Gensio.Conacc.C169_shutdown_ends_partial"
   ],
   "note": "Proved for careful users (see C167)."
  },
  {
   "property": "C17",
   "status": "partial",
   "theorems": [
    "Gensio.Msgdelim.C17_in_bounds_partial",
    "Gensio.Msgdelim.C17_max_message_overflows_violated",
    "Gensio.Msgdelim.C17_any_crc_overflows_violated"
   ],
   "note": "violated: limit is allocation + 2; holds when the allocation is at least the limit"
  },
  {
   "property": "C170",
   "status": "partial",
   "theorems": [
    "Gensio.Conacc.C170_one_partial",
    "Gensio.Conacc.C170_known_partial",
    "Gensio.Conacc.C170_handed_once",
    "Gensio.Conacc.C170_handed_open",
    "Gensio.Conacc.C170_two_violated"
   ],
   "note": "One connection at a time proved for careful users (a second close of a connection makes two); handed over at most once, and only while open, for all"
  },
  {
   "property": "C171",
   "status": "partial",
   "theorems": [
    "Gensio.Conacc.C171_accepter_partial",
    "Gensio.Conacc.C171_connections_partial",
    "Gensio.Conacc.C171_user_partial"
   ],
   "note": "Proved for careful users (see C167)."
  },
  {
   "property": "C172",
   "status": "partial",
   "theorems": [
    "Gensio.Defaults.C172_no_fault_partial",
    "Gensio.Defaults.C172_text_ends",
    "Gensio.Defaults.C172_data_violated",
    "Gensio.Defaults.C172_data_run_violated"
   ],
   "note": "No fault for any sequence of calls that asks for no data. VIOLATED: every request for a default of type data writes one byte behind the copy (gensio.c:3073-3078)."
  },
  {
   "property": "C173",
   "status": "partial",
   "theorems": [
    "Gensio.Defaults.C173_answers_partial",
    "Gensio.Defaults.C173_exact_partial",
    "Gensio.Defaults.C173_memory",
    "Gensio.Defaults.C173_set_get_partial",
    "Gensio.Defaults.C173_value",
    "Gensio.Defaults.C173_value_all",
    "Gensio.Defaults.C173_others"
   ],
   "note": "All calls are answered as by a map; partial because requests for data fault (C172)."
  },
  {
   "property": "C174",
   "status": "partial",
   "theorems": [
    "Gensio.Defaults.C174_reset_partial",
    "Gensio.Defaults.C174_udp_violated"
   ],
   "note": "After a reset every built-in default has the value of the table for every class. VIOLATED: reuseaddr for UDP, set to false when the library starts, is true after a reset."
  },
  {
   "property": "C175",
   "status": "partial",
   "theorems": [
    "Gensio.Defaults.C175_taken_partial",
    "Gensio.Defaults.C175_int_violated",
    "Gensio.Defaults.C175_bool_violated",
    "Gensio.Defaults.C175_timeout_violated",
    "Gensio.Defaults.C175_int"
   ],
   "note": "Texts of numbers are in range, enums are of the table. VIOLATED: numbers given as numbers are not checked; a text makes a bool any number; con-timeout, mdnstimeout and hangup-when-done accept no text but 0."
  },
  {
   "property": "C176",
   "status": "partial",
   "theorems": [
    "Gensio.Defaults.C176_owned_partial",
    "Gensio.Defaults.C176_all_partial",
    "Gensio.Defaults.C176_reset_violated",
    "Gensio.Defaults.C176_del_violated",
    "Gensio.Defaults.C176_cleanup_violated"
   ],
   "note": "Every block has one owner and all are freed without the calls that lose memory. VIOLATED: a reset loses class values of data, a deletion loses the string the default was made with, cleanup leaves added defaults."
  },
  {
   "property": "C177",
   "status": "partial",
   "theorems": [
    "Gensio.Defaults.C177_failed_partial"
   ],
   "note": "Every call that answers an error leaves the map as it was; partial because requests for data fault (C172)."
  },
  {
   "property": "C178",
   "status": "partial",
   "theorems": [
    "Gensio.Defaults.C178_addr_partial",
    "Gensio.Defaults.C178_addr_put",
    "Gensio.Defaults.C178_addr_errors",
    "Gensio.Defaults.C178_addr_violated",
    "Gensio.Defaults.C178_uint"
   ],
   "note": "VIOLATED: gensio_get_defaultaddr returns 1 when it found an address, which its callers take for the error out of memory, so that a default local address makes every such gensio fail. Proved: the address put in place is the scanned one; counts are never negative."
  },
  {
   "property": "C179",
   "status": "partial",
   "theorems": [
    "Gensio.Ssl.C179_output_in_order_partial",
    "Gensio.Ssl.C179_buffers",
    "Gensio.Ssl.C179_forgotten_error_violated"
   ],
   "note": "Proved for all reachable states without a forgotten error; the code forgets an error of the lower layer if want_write is set (:560-608)"
  },
  {
   "property": "C18",
   "status": "partial",
   "theorems": [
    "Gensio.Msgdelim.C18_only_checked_partial",
    "Gensio.Msgdelim.C18_initial_noise_partial",
    "Gensio.Msgdelim.C18_never_recovers_violated"
   ],
   "note": "check value part proved; recovery violated for every message list after one bad message"
  },
  {
   "property": "C180",
   "status": "partial",
   "theorems": [
    "Gensio.Ssl.C180_count",
    "Gensio.Ssl.C180_thrown_away",
    "Gensio.Ssl.C180_in_order_partial",
    "Gensio.Ssl.C180_no_fault_partial",
    "Gensio.Ssl.C180_other_bytes_violated"
   ],
   "note": "Counts for all states; order and repetition without a forgotten error, counterexample with one"
  },
  {
   "property": "C181",
   "status": "proved",
   "theorems": [
    "Gensio.Ssl.C181_in_order",
    "Gensio.Ssl.C181_offer",
    "Gensio.Ssl.C181_taken",
    "Gensio.Ssl.C181_goes_on",
    "Gensio.Ssl.C181_input"
   ],
   "note": "All reachable states, calls may come while the read handler runs"
  },
  {
   "property": "C182",
   "status": "partial",
   "theorems": [
    "Gensio.Ssl.C182_sticky",
    "Gensio.Ssl.C182_reported",
    "Gensio.Ssl.C182_cause_partial",
    "Gensio.Ssl.C182_peek_violated"
   ],
   "note": "A successful SSL_peek is reported as GE_NOMEM (:600-606)"
  },
  {
   "property": "C183",
   "status": "proved",
   "theorems": [
    "Gensio.Ssl.C183_drained",
    "Gensio.Ssl.C183_pending",
    "Gensio.Ssl.C183_can_write"
   ],
   "note": "All calls"
  },
  {
   "property": "C184",
   "status": "partial",
   "theorems": [
    "Gensio.Ssl.C184_deadline_partial",
    "Gensio.Ssl.C184_second_open_violated"
   ],
   "note": "First open; the time of the first open is used for the second (ssl_cleanup leaves start_time_set)"
  },
  {
   "property": "C185",
   "status": "partial",
   "theorems": [
    "Gensio.Ssl.C185_authenticated_partial",
    "Gensio.Ssl.C185_server",
    "Gensio.Ssl.C185_no_cert",
    "Gensio.Ssl.C185_post",
    "Gensio.Ssl.C185_refusal_violated",
    "Gensio.Ssl.C185_store_violated",
    "Gensio.Ssl.C185_post_violated"
   ],
   "note": "What OpenSSL does with the verification is an assumption (Model/Ssl.lean, handshake); clients ignore refusals and their own store"
  },
  {
   "property": "C186",
   "status": "partial",
   "theorems": [
    "Gensio.Ssl.C186_certs_partial",
    "Gensio.Ssl.C186_over_free_violated",
    "Gensio.Ssl.C186_name_violated",
    "Gensio.Ssl.C186_name_partial"
   ],
   "note": "Any number of complete opens; a failed handshake frees the certificate too often, the user name keeps the pointer of the caller"
  },
  {
   "property": "C187",
   "status": "partial",
   "theorems": [
    "Gensio.Ll2.C187_open_partial"
   ],
   "note": "One open and one close in any interleaving with the children; the part about a close in between is C188."
  },
  {
   "property": "C188",
   "status": "partial",
   "theorems": [
    "Gensio.Ll2.C188_close_partial",
    "Gensio.Ll2.C188_close_in_open_violated",
    "Gensio.Ll2.C188_close_failed_violated"
   ],
   "note": "Holds for a close of an open gensio. Violated during an open: the state is set to closed before it is tested for a close, so the open is reported and the close never is."
  },
  {
   "property": "C189",
   "status": "partial",
   "theorems": [
    "Gensio.Ll2.C189_reopen_violated",
    "Gensio.Ll2.C189_second_close_violated",
    "Gensio.Ll2.C189_old_error_violated",
    "Gensio.Ll2.C189_hang_violated",
    "Gensio.Ll2.C189_never_again_violated"
   ],
   "note": "Violated: the state is never left after a close, the error and the flags of an earlier open are never cleared; proved for every sequence that follows."
  },
  {
   "property": "C19",
   "status": "partial",
   "theorems": [
    "Gensio.Kiss.C19_send_partial",
    "Gensio.Kiss.C19_delivery",
    "Gensio.Kiss.C19_max_frame_dropped_violated"
   ],
   "note": "Sender: data up to the write size. Receiver: frames with type byte and data within the read size; a frame of exactly the configured size is dropped by an equally configured receiver (violation proved)."
  },
  {
   "property": "C190",
   "status": "proved",
   "theorems": [
    "Gensio.Perf.C190_counts",
    "Gensio.Perf.C190_total"
   ],
   "note": "Texts are any that fit the buffer; counters do not wrap."
  },
  {
   "property": "C191",
   "status": "proved",
   "theorems": [
    "Gensio.Perf.C191_text",
    "Gensio.Perf.C191_taken"
   ],
   "note": "Texts are any that fit the buffer."
  },
  {
   "property": "C192",
   "status": "partial",
   "theorems": [
    "Gensio.Perf.C192_last",
    "Gensio.Perf.C192_ends",
    "Gensio.Perf.C192_lost_violated",
    "Gensio.Perf.C192_after_violated"
   ],
   "note": "The end comes and only after the total was read. Violated: an error while a periodic report waits loses the total for good, and a tick may follow the total."
  },
  {
   "property": "C193",
   "status": "partial",
   "theorems": [
    "Gensio.Perf.C193_since",
    "Gensio.Perf.C193_ms_partial",
    "Gensio.Perf.C193_ms_violated",
    "Gensio.Perf.C193_write_end",
    "Gensio.Perf.C193_write_kept"
   ],
   "note": "Differences exact; the printed milliseconds are wrong (1000) for the last half millisecond of each second."
  },
  {
   "property": "C194",
   "status": "partial",
   "theorems": [
    "Gensio.Perf.C194_asked_partial",
    "Gensio.Perf.C194_idle_violated",
    "Gensio.Perf.C194_no_buffer_violated",
    "Gensio.Perf.C194_again_partial",
    "Gensio.Perf.C194_stall_violated",
    "Gensio.Perf.C194_slow_violated"
   ],
   "note": "Violated: a lower layer that takes everything is not asked again, so two buffers are written and then one a second; calls that do nothing are asked for while input is awaited; writebuf=0 never ends."
  },
  {
   "property": "C195",
   "status": "proved",
   "theorems": [
    "Gensio.Trace.C195_text",
    "Gensio.Trace.C195_back",
    "Gensio.Trace.C195_pos",
    "Gensio.Trace.C195_shown"
   ],
   "note": "All data and pieces. The reader of the text is defined from the format, not from the code. isprint of the C locale; positions are modulo 2^32 as in the code."
  },
  {
   "property": "C196",
   "status": "partial",
   "theorems": [
    "Gensio.Trace.C196_trace",
    "Gensio.Trace.C196_raw",
    "Gensio.Trace.C196_off",
    "Gensio.Trace.C196_time_violated",
    "Gensio.Trace.C196_time_partial"
   ],
   "note": "Entries, order and raw bytes hold for all calls. Missing: the time has seven digits after the colon in the last half microsecond of each second (violation proved)."
  },
  {
   "property": "C197",
   "status": "partial",
   "theorems": [
    "Gensio.Trace.C197_write",
    "Gensio.Trace.C197_read",
    "Gensio.Trace.C197_block_read",
    "Gensio.Trace.C197_block_write_partial",
    "Gensio.Trace.C197_count_violated",
    "Gensio.Trace.C197_discard_violated"
   ],
   "note": "Missing: with b4dir and block for writes the count is twice the bytes given, and discarded data is in the trace against the manual (both proved)."
  },
  {
   "property": "C198",
   "status": "proved",
   "theorems": [
    "Gensio.Trace.C198_handles",
    "Gensio.Trace.C198_append",
    "Gensio.Trace.C198_delold",
    "Gensio.Trace.C198_open_fails",
    "Gensio.Trace.C198_no_place"
   ],
   "note": "Assumes the base connects only a filter that is new or cleaned up, and one connection per file; fopen may fail, writes do not."
  },
  {
   "property": "C199",
   "status": "partial",
   "theorems": [
    "Gensio.Script.C199_lock_partial",
    "Gensio.Script.C199_unlock_violated",
    "Gensio.Script.C199_stuck_violated"
   ],
   "note": "Missing: each failed open gives the lock back twice, and a write to a filter whose script failed meanwhile keeps it (both proved). All other paths are right."
  },
  {
   "property": "C20",
   "status": "partial",
   "theorems": [
    "Gensio.Kiss.C20_count_partial",
    "Gensio.Kiss.C20_truncated_violated",
    "Gensio.Kiss.C20_empty_writes_overrun_violated"
   ],
   "note": "Holds for non-empty writes within the write size; truncation reported as accepted and overrun by empty writes are proved violations."
  },
  {
   "property": "C200",
   "status": "partial",
   "theorems": [
    "Gensio.Script.C200_order_partial",
    "Gensio.Script.C200_cut_violated",
    "Gensio.Script.C200_lost_violated",
    "Gensio.Script.C200_taken"
   ],
   "note": "Order and contents hold while the script runs if its reads are at most 1024 bytes. Missing: longer reads are cut, and what is buffered at the end of the script is lost in both directions (both proved)."
  },
  {
   "property": "C201",
   "status": "proved",
   "theorems": [
    "Gensio.Script.C201_once",
    "Gensio.Script.C201_success",
    "Gensio.Script.C201_failure",
    "Gensio.Script.C201_final"
   ],
   "note": "Assumes the base as in Ok (setup after cleanup, one write at a time) and that a freed gensio gives no more callbacks."
  },
  {
   "property": "C202",
   "status": "partial",
   "theorems": [
    "Gensio.Script.C202_memory_partial",
    "Gensio.Script.C202_null_violated"
   ],
   "note": "Missing: if the script ends while the lower layer takes its output, NULL is used (proved). Without that race all histories are right."
  },
  {
   "property": "C203",
   "status": "proved",
   "theorems": [
    "Gensio.Stdio.C203_stream",
    "Gensio.Stdio.C203_offer"
   ],
   "note": "Model of one channel with the handler, the deferred operation and their callbacks as open intervals; over all sessions."
  },
  {
   "property": "C204",
   "status": "partial",
   "theorems": [
    "Gensio.Stdio.C204_last",
    "Gensio.Stdio.C204_report_partial",
    "Gensio.Stdio.C204_silent_violated"
   ],
   "note": "The order is proved; that the reader is always told is violated: after a failed write no callback ever comes (theorem over all continuations). Partial: told at once if no error came before."
  },
  {
   "property": "C205",
   "status": "partial",
   "theorems": [
    "Gensio.Stdio.C205_fresh_partial",
    "Gensio.Stdio.C205_stale_violated",
    "Gensio.Stdio.C205_blocked_violated"
   ],
   "note": "Violated: stdion_open keeps the buffer, whose bytes are given in the new session or stop it. Partial: sessions that begin with an empty buffer."
  },
  {
   "property": "C206",
   "status": "partial",
   "theorems": [
    "Gensio.Stdio.C206_reports",
    "Gensio.Stdio.C206_quiet_partial",
    "Gensio.Stdio.C206_ends_partial",
    "Gensio.Stdio.C206_after_violated",
    "Gensio.Stdio.C206_noreport_violated"
   ],
   "note": "Counting of reports proved. Violated: data callbacks after a close or free returned; a close without close_done never ends, so that the gensio is never freed. Partial: quiet once the deferred operation began the close; the close with close_done ends. The wait for the program is in the StdioLife unit."
  },
  {
   "property": "C207",
   "status": "partial",
   "theorems": [
    "Gensio.Stdio.C207_moves_partial",
    "Gensio.Stdio.C207_asleep_violated"
   ],
   "note": "Violated: on, off and on again around the deferred operation leaves in_read set and no callback ever comes (theorem over all continuations). Partial: users that do not switch off while the deferred operation is due, whose callbacks do not fail and that leave no data at a close."
  },
  {
   "property": "C208",
   "status": "partial",
   "theorems": [
    "Gensio.StdioLife.C208_refs_partial",
    "Gensio.StdioLife.C208_race_violated",
    "Gensio.StdioLife.C208_realloc_violated",
    "Gensio.StdioLife.C208_reopen_violated",
    "Gensio.StdioLife.C208_errfail_violated"
   ],
   "note": "Proved for a careful user: one program per gensio, a stderr channel allocated once, opened while its descriptor is there and successfully, closes with close_done, no free of a gensio from another thread while its close_done runs. Violated otherwise: double free between close_done and gensio_free, a second stderr channel freed under the user, NULL used by a second open of stderr, descriptors of the main channel closed by a failing open of stderr."
  },
  {
   "property": "C209",
   "status": "partial",
   "theorems": [
    "Gensio.StdioLife.C209_once",
    "Gensio.StdioLife.C209_goes_partial",
    "Gensio.StdioLife.C209_lost_violated",
    "Gensio.StdioLife.C209_abort_violated",
    "Gensio.StdioLife.C209_both_violated"
   ],
   "note": "At most one report for each close with close_done in every run; for a careful user (see C208) the close always goes on, with at most 1003 steps of the system. Violated in a second session of a gensio with a stderr channel: report lost, assertion, close without end."
  },
  {
   "property": "C21",
   "status": "proved",
   "theorems": [
    "Gensio.Hdlc.C21_transparent",
    "Gensio.Hdlc.C21_receive"
   ],
   "note": "All frame contents; bit-level encoder and receiver."
  },
  {
   "property": "C210",
   "status": "partial",
   "theorems": [
    "Gensio.StdioLife.C210_code_partial",
    "Gensio.StdioLife.C210_waited_violated",
    "Gensio.StdioLife.C210_stale_violated",
    "Gensio.StdioLife.C210_retries_violated"
   ],
   "note": "For a careful user (see C208) without GENSIO_CONTROL_WAIT_TASK and a system that does not fail to wait: a code that is given is the status of the program, and it is given after both channels are closed unless the 1000 tries are used up. Violated: not given after WAIT_TASK, the code of an earlier session given, tries never given back."
  },
  {
   "property": "C211",
   "status": "partial",
   "theorems": [
    "Gensio.Dummy.C211_once",
    "Gensio.Dummy.C211_shut_partial",
    "Gensio.Dummy.C211_memory",
    "Gensio.Dummy.C211_progress",
    "Gensio.Dummy.C211_refused_violated"
   ],
   "note": "The report of a shutdown is proved for runs without a startup while a shutdown is under way; such a startup is refused but enables the accepter, and C211_refused_violated proves that the report of the shutdown then never comes. Enables, references and progress are proved without that."
  },
  {
   "property": "C212",
   "status": "partial",
   "theorems": [
    "Gensio.StdioAcc.C212_memory",
    "Gensio.StdioAcc.C212_careful_partial",
    "Gensio.StdioAcc.C212_gensio_violated",
    "Gensio.StdioAcc.C212_enable_violated",
    "Gensio.StdioAcc.C212_again_violated",
    "Gensio.StdioAcc.C212_error_violated"
   ],
   "note": "C212_memory accounts for every reference, with those that were lost; C212_careful_partial proves that nothing is lost for a user that closes the gensio before freeing it, waits for each enable, starts up once per gensio, and meets no failure of set_fd_handlers. The four violations prove that without each of these the accepter is never given back, whatever follows. Reads and writes are left out."
  },
  {
   "property": "C213",
   "status": "partial",
   "theorems": [
    "Gensio.StdioAcc.C213_once",
    "Gensio.StdioAcc.C213_conn",
    "Gensio.StdioAcc.C213_shut_partial",
    "Gensio.StdioAcc.C213_window_violated",
    "Gensio.StdioAcc.C213_null_violated",
    "Gensio.StdioAcc.C213_free_violated",
    "Gensio.StdioAcc.C213_refused_violated",
    "Gensio.StdioAcc.C213_quiet",
    "Gensio.StdioAcc.C213_close_once"
   ],
   "note": "Enables and connections are counted exactly and closes are bounded for all runs; shutdowns are counted exactly if no other one is accepted between the unlock and the look at shutdown_done. The violations: one report given twice and one never, a connection that is NULL, a connection after the free, and a close that never ends after a startup that was refused. After a free no close is reported, and a second close is refused (proved in full)."
  },
  {
   "property": "C214",
   "status": "partial",
   "theorems": [
    "Gensio.SerModem.C214_look",
    "Gensio.SerModem.C214_first",
    "Gensio.SerModem.C214_told",
    "Gensio.SerModem.C214_turns_partial",
    "Gensio.SerModem.C214_progress_partial",
    "Gensio.SerModem.C214_callback_partial",
    "Gensio.SerModem.C214_masked_violated",
    "Gensio.SerModem.C214_lost_violated",
    "Gensio.SerModem.C214_stuck_violated"
   ],
   "note": "One look (callbacks, event, bits, what is remembered), the first state after a mask, and the account of callbacks are proved in full for all runs. Lines outside the mask are remembered as off, so that they count as changed at every look (violated); with all lines in the mask the events are exactly the changes. The callback of a mask may never be called, and looking may stop for ever, when the timer fires while a look is under way (violated); progress holds when it does not fire in that window."
  },
  {
   "property": "C215",
   "status": "partial",
   "theorems": [
    "Gensio.Acontrol.C215_first",
    "Gensio.Acontrol.C215_depth",
    "Gensio.Acontrol.C215_set",
    "Gensio.Acontrol.C215_answer_partial",
    "Gensio.Acontrol.C215_safe_partial",
    "Gensio.Acontrol.C215_overflow_violated",
    "Gensio.Acontrol.C215_one_violated",
    "Gensio.Acontrol.C215_leak_violated",
    "Gensio.Acontrol.C215_interrupt_violated"
   ],
   "note": "Depths, sets and errors are proved in full. gensio_acontrol_s_done computes how much fits and then copies the whole answer: every answer longer than the buffer overflows it, a buffer of no bytes included (violated); answers that fit are right. Refused calls lose their waiter and interrupted calls leave a pointer into their frame (violated)."
  },
  {
   "property": "C216",
   "status": "partial",
   "theorems": [
    "Gensio.SerConf.C216_answers_partial",
    "Gensio.SerConf.C216_accepted",
    "Gensio.SerConf.C216_progress",
    "Gensio.SerConf.C216_free_violated"
   ],
   "note": "Proved for all runs in which the gensio is not freed while the callback of a request runs. The close looks at the queue, from which the request whose callback runs has been taken, and not at deferred_op_pending: the gensio can be freed under the runner (violated)."
  },
  {
   "property": "C217",
   "status": "proved",
   "theorems": [
    "Gensio.SerConf.C217_total",
    "Gensio.SerConf.C217_char",
    "Gensio.SerConf.C217_waits",
    "Gensio.SerConf.C217_empty",
    "Gensio.SerConf.C217_off"
   ],
   "note": "All parts proved for all times and sequences of counts."
  },
  {
   "property": "C218",
   "status": "partial",
   "theorems": [
    "Gensio.SerSpeed.C218_accept_partial",
    "Gensio.SerSpeed.C218_print",
    "Gensio.SerSpeed.C218_other",
    "Gensio.SerSpeed.C218_wrap_violated"
   ],
   "note": "Proved for all strings whose number fits into an int. A larger number is not refused but taken modulo 2^32 (violated)."
  },
  {
   "property": "C219",
   "status": "partial",
   "theorems": [
    "Gensio.Memtrack.C219_free_partial",
    "Gensio.Memtrack.C219_lost",
    "Gensio.Memtrack.C219_zero",
    "Gensio.Memtrack.C219_clean_partial",
    "Gensio.Memtrack.C219_all",
    "Gensio.Memtrack.C219_size_violated",
    "Gensio.Memtrack.C219_after_violated"
   ],
   "note": "Partial for blocks below 2 GiB: the size is kept in an int32_t. Writes into a freed block are not found."
  },
  {
   "property": "C22",
   "status": "partial",
   "theorems": [
    "Gensio.Hdlc.C22_delivers_partial",
    "Gensio.Hdlc.C22_after_noise_partial",
    "Gensio.Hdlc.C22_ninth_frame_violated"
   ],
   "note": "Holds for the first eight frames (certain bits); the ninth frame reads outside delivermsgs, proved for every configuration."
  },
  {
   "property": "C220",
   "status": "partial",
   "theorems": [
    "Gensio.Errtrig.C220_trig",
    "Gensio.Errtrig.C220_first",
    "Gensio.Errtrig.C220_exit_partial",
    "Gensio.Errtrig.C220_exit_violated",
    "Gensio.Errtrig.C220_nth_violated",
    "Gensio.Errtrig.C220_wrap_violated"
   ],
   "note": "Calls count from 0, against the comment; the count wraps after 2^32 calls; the exit code of a program that never called do_errtrig is not changed."
  },
  {
   "property": "C23",
   "status": "partial",
   "theorems": [
    "Gensio.Hdlc.C23_fits_iff",
    "Gensio.Hdlc.C23_no_flags_partial",
    "Gensio.Hdlc.C23_ff_overflow_violated",
    "Gensio.Hdlc.C23_any_content_overflow_violated"
   ],
   "note": "Exact condition proved; the buffer size ignores preamble and postamble, overflow proved for the default flags."
  },
  {
   "property": "C24",
   "status": "partial",
   "theorems": [
    "Gensio.Xlt.C24_translates",
    "Gensio.Xlt.C24_count_partial",
    "Gensio.Xlt.C24_count_violated",
    "Gensio.Xlt.C24_error_keeps_violated"
   ],
   "note": "Translation in order is proved for every history; the reported count is proved wrong by exactly the number of held bytes, and bytes are kept on a reported error."
  },
  {
   "property": "C25",
   "status": "partial",
   "theorems": [
    "Gensio.Relpkt.C25_network_partial",
    "Gensio.Relpkt.C25_fifo_partial",
    "Gensio.Relpkt.C25_window256_violated",
    "Gensio.Relpkt.C25_window255_violated"
   ],
   "note": "Proved for windows whose sizes add up to at most 255 packets (FIFO network with loss and duplication, any age) or 256 (network with reordering that does not deliver packets so old that their number is ambiguous). Violated beyond: the receive window check accepts one packet too many, a duplicate is delivered twice."
  },
  {
   "property": "C26",
   "status": "partial",
   "theorems": [
    "Gensio.Relpkt.C26_network_partial",
    "Gensio.Relpkt.C26_fifo_partial",
    "Gensio.Relpkt.C26_stale_violated",
    "Gensio.Relpkt.C26_exact_violated"
   ],
   "note": "Marks are never lost (same restriction on the windows). Spurious marks: the mark of a transmit slot is never cleared, and a buffer list filling a packet exactly is not seen as truncated."
  },
  {
   "property": "C27",
   "status": "partial",
   "theorems": [
    "Gensio.Relpkt.C27_partial",
    "Gensio.Relpkt.C27_violated"
   ],
   "note": "No assertion fails for any sequence of operations and packets as long as no resend request runs backwards; such a request leads to an assertion failure."
  },
  {
   "property": "C28",
   "status": "partial",
   "theorems": [
    "Gensio.Base.C28_partial",
    "Gensio.Base.C28_calls",
    "Gensio.Base.C28_close_violated",
    "Gensio.Base.C28_llclose_violated",
    "Gensio.Base.C28_llclose_stuck"
   ],
   "note": "Proved for every filter and every lower layer keeping the stated contract, for runs without the situations listed in Clean. Counterexamples: a close before the report drops the report, and a failing ll_close after a filter failure loses it."
  },
  {
   "property": "C29",
   "status": "partial",
   "theorems": [
    "Gensio.Base.C29_partial",
    "Gensio.Base.C29_alone",
    "Gensio.Base.C29_deliver",
    "Gensio.Base.C29_llclose",
    "Gensio.Base.C29_swapped_violated",
    "Gensio.Base.C29_overlap_violated",
    "Gensio.Base.C29_timer_violated",
    "Gensio.Base.C29_nochild_violated",
    "Gensio.Base.C29_drain_violated"
   ],
   "note": "Proved for clean runs (no reopen in the window between unlock and close callback, no close while the open callback runs, no late filter error after close, no reopen with a drain timer still stopping). Each excluded situation has a counterexample."
  },
  {
   "property": "C30",
   "status": "partial",
   "theorems": [
    "Gensio.Base.C30_partial",
    "Gensio.Base.C30_once",
    "Gensio.Base.C30_double_violated",
    "Gensio.Base.C30_reopen_violated",
    "Gensio.Base.C30_timer_violated",
    "Gensio.Base.C30_refused_violated"
   ],
   "note": "Reference count, release and absence of use after release proved for clean runs. Counterexamples: references lost to timers, a new session's timer stopped by the old close, a refused open leaving the lower layer open at release."
  },
  {
   "property": "C31",
   "status": "partial",
   "theorems": [
    "Gensio.MuxId.C31_new_partial",
    "Gensio.MuxId.C31_partial",
    "Gensio.MuxId.C31_violated"
   ],
   "note": "Proved for channel lists in number order, which last until number 0 is given out a second time; after that two live channels can get the same number."
  },
  {
   "property": "C32",
   "status": "partial",
   "theorems": [
    "Gensio.Mux.C32_window_partial",
    "Gensio.Mux.C32_service_violated"
   ],
   "note": "In a session of two joined muxes the unacknowledged bytes never exceed the window. Violated when the service string is longer than the window: the window computation wraps."
  },
  {
   "property": "C33",
   "status": "partial",
   "theorems": [
    "Gensio.Mux.C33_stream_partial",
    "Gensio.Mux.C33_write",
    "Gensio.Mux.C33_oob_violated"
   ],
   "note": "In-order exactly-once delivery of data and message marks per channel for a session in the opened state. Violated for oob data while oob is disabled: the data is skipped but an empty end-of-message callback is made."
  },
  {
   "property": "C34",
   "status": "partial",
   "theorems": [
    "Gensio.Mux.C34_framed_partial",
    "Gensio.Mux.C34_send_partial",
    "Gensio.Mux.C34_rsp_violated",
    "Gensio.Mux.C34_init_violated",
    "Gensio.Mux.C34_close_violated"
   ],
   "note": "Violated: a NEW_CHANNEL_RSP forgets a partly sent message of another channel, the answer to the first NEW_CHANNEL overwrites a partly sent INIT, a CLOSE_CHANNEL for a sending channel makes the buffer count wrap and the next send assert. Proved for all histories of calls, received bytes and partial child writes that avoid exactly these events (and re-opening while sending) and write buffers up to 65538 bytes."
  },
  {
   "property": "C35",
   "status": "partial",
   "theorems": [
    "Gensio.Mux.C35_header_partial",
    "Gensio.Mux.C35_short_header_violated"
   ],
   "note": "Stale header bytes never influence what is received as long as every header has the length its type requires. Violated: the size check compares words with bytes, so a short header is completed from the previous message."
  },
  {
   "property": "C36",
   "status": "partial",
   "theorems": [
    "Gensio.Ratelimit.C36_rate_partial",
    "Gensio.Ratelimit.C36_reopen_violated",
    "Gensio.Ratelimit.C36_zero_len_violated"
   ],
   "note": "Rate, order and recovery proved for every history on an open layer; reopening resets the limit and xmit_len=0 never sends (violations). The OS timer is assumed not to fire early."
  },
  {
   "property": "C37",
   "status": "partial",
   "theorems": [
    "Gensio.Chardelay.C37_order_delay_partial",
    "Gensio.Chardelay.C37_safe_without_sendon_partial",
    "Gensio.Chardelay.C37_timeout_sends",
    "Gensio.Chardelay.C37_scan_violated"
   ],
   "note": "Order and delay bound proved for runs without lower layer failure; with any send-on string every short write reads past the caller's data (violation proved for all such writes)."
  },
  {
   "property": "C38",
   "status": "partial",
   "theorems": [
    "Gensio.Time.C38_add",
    "Gensio.Time.C38_diff",
    "Gensio.Time.C38_cmp",
    "Gensio.Time.C38_add_nsecs_partial",
    "Gensio.Time.C38_add_nsecs_violated"
   ],
   "note": "add, diff, cmp are exact; gensio_time_add_nsecs leaves nsecs == 1e9 (violated)"
  },
  {
   "property": "C39",
   "status": "partial",
   "theorems": [
    "Gensio.Time.C39_msecs_partial",
    "Gensio.Time.C39_usecs_partial",
    "Gensio.Time.C39_nsecs_partial",
    "Gensio.Time.C39_violated",
    "Gensio.Time.C39_to_nsecs_wrong_violated"
   ],
   "note": "ms/us round trip for non-negative counts; gensio_time_to_nsecs is wrong for every time with a nanosecond part; negative counts give ill-formed times (violated)"
  },
  {
   "property": "C40",
   "status": "partial",
   "theorems": [
    "Gensio.SyncIo.C40_partial",
    "Gensio.SyncIo.C40_violated",
    "Gensio.SyncIo.C40_second",
    "Gensio.SyncIo.C40_spurious"
   ],
   "note": "Proved for all runs in which at each delivery one read waits or the first has room for all; otherwise the code hands the same bytes to the second reader and loses the rest (counterexample and general statement)."
  },
  {
   "property": "C41",
   "status": "partial",
   "theorems": [
    "Gensio.SyncIo.C41_partial",
    "Gensio.SyncIo.C41_error_violated"
   ],
   "note": "Order and exact counts proved for all writes without error return, including timeouts and partial acceptance; on error no count is stored."
  },
  {
   "property": "C42",
   "status": "partial",
   "theorems": [
    "Gensio.Convcode.C42_encoded_size",
    "Gensio.Convcode.C42_decoded_size",
    "Gensio.Convcode.C42_decoded_size_punctured_partial",
    "Gensio.Convcode.C42_encoded_bits",
    "Gensio.Convcode.C42_decoded_size_violated",
    "Gensio.Convcode.C42_decoded_size_skipped_violated",
    "Gensio.Convcode.C42_decoded_size_divzero_violated",
    "Gensio.Convcode.C42_short_violated"
   ],
   "note": "Encoded size exact for all codes and patterns while the raw size fits 32 bits; decoded size inverts it without puncturing and for patterns of whole symbols each keeping a bit. It fails for other patterns (refused, wrong, division by zero) and wraps for input shorter than the tail."
  },
  {
   "property": "C43",
   "status": "partial",
   "theorems": [
    "Gensio.Convcode.C43_hard_partial",
    "Gensio.Convcode.C43_soft_partial",
    "Gensio.Convcode.C43_tail_violated"
   ],
   "note": "Full trellis, metric range. The decoded sequence is the closest among all input sequences of the full length; with do_tail the decoder does not restrict itself to zero tails, so it may return a message that is not the closest (C43_tail_violated). Reduced trellis and tail biting not modelled."
  },
  {
   "property": "C44",
   "status": "partial",
   "theorems": [
    "Gensio.Convcode.C44_roundtrip",
    "Gensio.Convcode.C44_bytes",
    "Gensio.Convcode.C44_correct_partial",
    "Gensio.Convcode.C44_tail_violated",
    "Gensio.Convcode.C44_punctured_violated",
    "Gensio.Convcode.C44_extra_bit_violated",
    "Gensio.Convcode.C44_finish_loop_violated"
   ],
   "note": "Noiseless round trip proved bytes to bytes without puncturing for every code whose symbols determine the input bit; correction proved against the distance to all input sequences, and refuted against the distance among messages with tail; refuted for punctured codes with hard decisions. Also: C44_extra_bit_violated (rate 3/4 pattern, a bit is invented), C44_finish_loop_violated (convdecode_finish does not end)."
  },
  {
   "property": "C45",
   "status": "partial",
   "theorems": [
    "Gensio.Convcode.C45_first8_partial",
    "Gensio.Convcode.C45_ninth_violated"
   ],
   "note": "The property is false: after any eight delivered messages the next decodable one is an access behind readmsgs (curr_readmsg never wraps). Proved for up to eight messages with an upper layer that takes each message at once."
  },
  {
   "property": "C46",
   "status": "partial",
   "theorems": [
    "Gensio.Ax25Addr.C46_decode_safe",
    "Gensio.Ax25Addr.C46_roundtrip_partial",
    "Gensio.Ax25Addr.C46_reserved_violated",
    "Gensio.Ax25Addr.C46_inner_space_violated"
   ],
   "note": "Bounds safety for every packet; round trip for every valid address at any place in a packet. Reserved bits are not encoded and call signs with inner spaces are accepted (violations)."
  },
  {
   "property": "C47",
   "status": "partial",
   "theorems": [
    "Gensio.Ax25Addr.C47_roundtrip_partial",
    "Gensio.Ax25Addr.C47_port_violated",
    "Gensio.Ax25Addr.C47_flag_violated"
   ],
   "note": "Round trip without port for all valid addresses; the TNC port is never stored and :h with number 0 is refused (violations for all such addresses)."
  },
  {
   "property": "C48",
   "status": "partial",
   "theorems": [
    "Gensio.Slock.C48_partial",
    "Gensio.Slock.C48_pid",
    "Gensio.Slock.C48_flock",
    "Gensio.Slock.C48_stale_violated",
    "Gensio.Slock.C48_exit_violated",
    "Gensio.Slock.C48_alias_violated",
    "Gensio.Slock.C48_flock_violated"
   ],
   "note": "Mutual exclusion of the UUCP lock is proved for any number of processes and interleavings when processes end only while idle and unobserved and use one name for the device; counterexamples for stale locks, a holder that exits, two names of a device, and a process that takes only flock. With flock in use (default) no two processes have the device open."
  },
  {
   "property": "C49",
   "status": "partial",
   "theorems": [
    "Gensio.Slock.C49_partial",
    "Gensio.Slock.C49_violated"
   ],
   "note": "A crash between creating and writing the lock file makes the lock unobtainable for ever; after a crash at any other point a process that runs alone obtains it."
  },
  {
   "property": "C50",
   "status": "partial",
   "theorems": [
    "Gensio.Time.C50_to_timeval_partial",
    "Gensio.Time.C50_add_timeval_partial",
    "Gensio.Time.C50_of_timeval",
    "Gensio.Time.C50_violated"
   ],
   "note": "accuracy holds; tv_usec can be 1000000 (violated)"
  },
  {
   "property": "C51",
   "status": "partial",
   "theorems": [
    "Gensio.Telnet.C51_commands_between_items_partial",
    "Gensio.Telnet.C51_truncated_command_violated",
    "Gensio.Telnet.C51_skipped_entry_violated"
   ],
   "note": "proved while the command queue has room; violated when it overflows (td->error never read) or max_write_size is 1"
  },
  {
   "property": "C52",
   "status": "proved",
   "theorems": [
    "Gensio.Kiss.C52_recovers"
   ],
   "note": "Unbounded noise and frames, any chunking."
  },
  {
   "property": "C53",
   "status": "partial",
   "theorems": [
    "Gensio.Kiss.C53_no_frame_marks_violated",
    "Gensio.Kiss.C53_all_ports_nothing_violated"
   ],
   "note": "The property is violated by the code; the theorems prove the violations."
  },
  {
   "property": "C54",
   "status": "proved",
   "theorems": [
    "Gensio.Hdlc.C54_table"
   ],
   "note": "Invariant of the table over any bits and hand-overs; queued messages are justified by the received bits, changed only where uncertain."
  },
  {
   "property": "C55",
   "status": "partial",
   "theorems": [
    "Gensio.Hdlc.C55_exactly_once_partial",
    "Gensio.Hdlc.C55_empty_write_violated"
   ],
   "note": "Proved for non-empty writes with any acceptance and failure; a write of no bytes on an idle sender resends a stale frame and wraps the buffer count (violation proved for every frame)."
  },
  {
   "property": "C56",
   "status": "partial",
   "theorems": [
    "Gensio.Hdlc.C56_with_uncertainty_partial",
    "Gensio.Hdlc.C56_bit_count_ignored_violated",
    "Gensio.Hdlc.C56_uncertain_bit_inverted_violated"
   ],
   "note": "True with an uncertainty array; without one the bit count is ignored, and with a single working message uncertain bits are inverted (both violations proved)."
  },
  {
   "property": "C57",
   "status": "partial",
   "theorems": [
    "Gensio.Xlt.C57_tables_partial",
    "Gensio.Xlt.C57_value_violated",
    "Gensio.Xlt.C57_false_violated"
   ],
   "note": "Tables proved for arguments in range; the replacement value is not range checked and booleans given as false act as true (violations). strtoul parsing is not modelled."
  },
  {
   "property": "C58",
   "status": "partial",
   "theorems": [
    "Gensio.Chardelay.C58_sound_partial",
    "Gensio.Chardelay.C58_single_byte_partial",
    "Gensio.Chardelay.C58_overlap_violated"
   ],
   "note": "Soundness for all strings, exactness for one byte strings; a self-overlapping string is missed (violation)."
  },
  {
   "property": "C59",
   "status": "partial",
   "theorems": [
    "Gensio.Ax25Addr.C59_number_partial",
    "Gensio.Ax25Addr.C59_stale_violated"
   ],
   "note": "Holds when a number is given; violated for every call sign without a number."
  },
  {
   "property": "C60",
   "status": "partial",
   "theorems": [
    "Gensio.Ax25Addr.C60_single_partial",
    "Gensio.Ax25Addr.C60_list_violated"
   ],
   "note": "A single address works; every list with a semicolon is refused."
  },
  {
   "property": "C61",
   "status": "partial",
   "theorems": [
    "Gensio.Ax25Addr.C61_syntax_partial",
    "Gensio.Ax25Addr.C61_syntax_violated"
   ],
   "note": "Soundness of the call sign and range, completeness for callsign and callsign-n; :c/:r refused, bad numbers accepted."
  },
  {
   "property": "C62",
   "status": "proved",
   "theorems": [
    "Gensio.Args.C62_named"
   ],
   "note": "In any context."
  },
  {
   "property": "C63",
   "status": "proved",
   "theorems": [
    "Gensio.Convcode.C63_encoder"
   ],
   "note": "Stream encoder, all codes accepted by setup_convcode1."
  },
  {
   "property": "C64",
   "status": "proved",
   "theorems": [
    "Gensio.Convcode.C64_chunks"
   ],
   "note": "Full trellis; stated for pieces that are accepted (no out of bounds access, loop terminates)."
  },
  {
   "property": "C65",
   "status": "proved",
   "theorems": [
    "Gensio.Convcode.C65_block",
    "Gensio.Convcode.C65_pieces",
    "Gensio.Convcode.C65_decode_block",
    "Gensio.Convcode.C65_decode_dirty_violated"
   ],
   "note": "Block encoder with and without puncturing and with symbols spanning bytes; block decoder without puncturing and soft decisions (as the filter uses it). C65_decode_dirty_violated shows that the decoder relies on a zeroed array, which the filter does not provide when reusing a slot."
  },
  {
   "property": "C66",
   "status": "partial",
   "theorems": [
    "Gensio.Relpkt.C66_partial",
    "Gensio.Relpkt.C66_refused_partial",
    "Gensio.Relpkt.C66_violated"
   ],
   "note": "Proved with up to 254 packets outstanding; with 255 outstanding every acknowledgement is refused for ever."
  },
  {
   "property": "C67",
   "status": "partial",
   "theorems": [
    "Gensio.Relpkt.C67_partial",
    "Gensio.Relpkt.C67_violated"
   ],
   "note": "Violated by resend requests for packets acknowledged meanwhile; the partial theorem bounds which packets can cause a protocol error."
  },
  {
   "property": "C68",
   "status": "partial",
   "theorems": [
    "Gensio.Mux.C68_isolation_partial",
    "Gensio.Mux.C68_refused_violated",
    "Gensio.Mux.C68_no_channel_violated"
   ],
   "note": "Every user call and every message for a channel changes only that channel's record (and the mux's shared queues); a refusal of an open request and a close of an open channel leave the mux open. Violated: a refusal of a channel that is being closed takes the whole mux to closed; a NEW_CHANNEL for which no channel can be made desynchronises the parser and kills the mux."
  },
  {
   "property": "C69",
   "status": "partial",
   "theorems": [
    "Gensio.Mux.C69_wake_partial",
    "Gensio.Mux.C69_xmit_violated"
   ],
   "note": "Proved for a message being sent and for channels waiting; violated for the mux's own control message: a partial write of it with no channel waiting disables the callback."
  },
  {
   "property": "C70",
   "status": "partial",
   "theorems": [
    "Gensio.Mux.C70_window_returned_partial",
    "Gensio.Mux.C70_service_violated"
   ],
   "note": "Holds for sessions that start with nothing unacknowledged. Violated for the first channel: its service bytes are never acknowledged."
  },
  {
   "property": "C71",
   "status": "partial",
   "theorems": [
    "Gensio.Mux.C71_no_deadlock_partial"
   ],
   "note": "For two joined opened muxes and fair histories (no opening or closing during the run, messages that fit the window); liveness of the child itself is an assumption."
  },
  {
   "property": "C72",
   "status": "partial",
   "theorems": [
    "Gensio.Mux.C72_last_close_partial",
    "Gensio.Mux.C72_refused_violated"
   ],
   "note": "Proved for all histories in which no new channel is refused and the mux is opened by its first channel; violated after a refusal, which never decrements nr_not_closed, so that the child is never closed."
  },
  {
   "property": "C73",
   "status": "proved",
   "theorems": [
    "Gensio.Mux.C73_buffer",
    "Gensio.Mux.C73_length",
    "Gensio.Mux.C73_new"
   ],
   "note": "Model of lib/gensio_mux.c; arbitrary operations from a fresh mux, no assumption on the peer. Found by mutation testing of the other mux theorems."
  },
  {
   "property": "C74",
   "status": "proved",
   "theorems": [
    "Gensio.Sel.C74_timers",
    "Gensio.Sel.C74_count"
   ],
   "note": "Thread-interleaving model of the selector over the pointer level heap; a step is a lock section. Waiting may end at any time."
  },
  {
   "property": "C75",
   "status": "proved",
   "theorems": [
    "Gensio.Sel.C75_due"
   ],
   "note": "Same model; safety form: what a thread has done when it waits or leaves."
  },
  {
   "property": "C76",
   "status": "partial",
   "theorems": [
    "Gensio.Sel.C76_count_partial",
    "Gensio.Sel.C76_violated",
    "Gensio.Sel.C76_dead",
    "Gensio.Sel.C76_restart_violated"
   ],
   "note": "Violated: a stop or free before the done handler is called loses it for ever; stop_with_done in the handler of a restarted timer returns ETIMEDOUT without stopping it. Proved: accepted stops = done calls + outstanding."
  },
  {
   "property": "C77",
   "status": "partial",
   "theorems": [
    "Gensio.Sel.C77_timers_partial",
    "Gensio.Sel.C77_done_violated",
    "Gensio.Sel.C77_restart_violated"
   ],
   "note": "Violated: stop_with_done wakes nobody; a timer restarted in its handler is queued without waking other waiting threads. Proved for a fixed pool of threads when stop_with_done is called while one of them does not wait."
  },
  {
   "property": "C78",
   "status": "proved",
   "theorems": [
    "Gensio.Sel.C78_runners",
    "Gensio.Sel.C78_count"
   ],
   "note": "Same model as C74."
  },
  {
   "property": "C79",
   "status": "proved",
   "theorems": [
    "Gensio.Sel.C79_runners",
    "Gensio.Sel.C79_nowait"
   ],
   "note": "Same model as C74; that a signal wakes pselect is trusted."
  },
  {
   "property": "C80",
   "status": "partial",
   "theorems": [
    "Gensio.SelFd.C80_partial",
    "Gensio.SelFd.C80_lost_violated",
    "Gensio.SelFd.C80_replace_violated",
    "Gensio.SelFd.C80_uaf_violated"
   ],
   "note": "Holds in runs in which handlers are set only while no handler of the descriptor runs and a registration is replaced only before a hang up. Otherwise a new registration is lost (handle_selector_call clears fdc->state), or released memory is used (end of sel_set_fd_handlers without the lock)."
  },
  {
   "property": "C81",
   "status": "partial",
   "theorems": [
    "Gensio.Sel.C81_diff",
    "Gensio.Sel.C81_add_partial",
    "Gensio.Sel.C81_add_violated"
   ],
   "note": "diff_timeval proved; add_timeval violated when the microseconds sum to exactly a million, otherwise right."
  },
  {
   "property": "C82",
   "status": "partial",
   "theorems": [
    "Gensio.SyncAcc.C82_once",
    "Gensio.SyncAcc.C82_wait_partial",
    "Gensio.SyncAcc.C82_closed_violated",
    "Gensio.SyncAcc.C82_wait_violated"
   ],
   "note": "Each connection goes to one accept, in order, or is freed at shutdown (proved). Counterexamples: an accept is told GE_LOCALCLOSED when another one overtakes it; an interrupted accept leaves another waiting beside a connection."
  },
  {
   "property": "C83",
   "status": "partial",
   "theorems": [
    "Gensio.SelFd.C83_partial",
    "Gensio.SelFd.C83_calm_partial",
    "Gensio.SelFd.C83_enabled",
    "Gensio.SelFd.C83_clear",
    "Gensio.SelFd.C83_write_violated",
    "Gensio.SelFd.C83_write2_violated",
    "Gensio.SelFd.C83_assert_violated",
    "Gensio.SelFd.C83_again_violated"
   ],
   "note": "Holds in the same runs for reading and exceptions, and for writing when there is no hang up or error. After a hang up writing is never reported; replacing handlers after a hang up, or setting them after a lost registration, fails an assertion."
  },
  {
   "property": "C84",
   "status": "partial",
   "theorems": [
    "Gensio.LlFd.C84_safe_partial",
    "Gensio.LlFd.C84_once_partial",
    "Gensio.LlFd.C84_order_partial",
    "Gensio.LlFd.C84_rest_partial",
    "Gensio.LlFd.C84_reopen_violated",
    "Gensio.LlFd.C84_close_violated",
    "Gensio.LlFd.C84_retry_violated",
    "Gensio.LlFd.C84_assert_violated",
    "Gensio.LlFd.C84_lost_violated",
    "Gensio.LlFd.C84_disable_violated",
    "Gensio.LlFd.C84_oob_violated"
   ],
   "note": "Theorems are for all runs that keep the rules of `fair` (each rule is shown to be needed by a _violated theorem). Eventual reporting is shown as: nothing outstanding at rest; that the system comes to rest is not proved."
  },
  {
   "property": "C85",
   "status": "partial",
   "theorems": [
    "Gensio.LlFd.C85_dead_partial",
    "Gensio.LlFd.C85_freed_partial",
    "Gensio.LlFd.C85_desc_partial",
    "Gensio.LlFd.C85_leak_violated",
    "Gensio.LlFd.C85_free_violated",
    "Gensio.LlFd.C85_except_violated"
   ],
   "note": "Theorems are for all runs that keep the rules of `fair` (each rule is shown to be needed by a _violated theorem). Eventual reporting is shown as: nothing outstanding at rest; that the system comes to rest is not proved."
  },
  {
   "property": "C86",
   "status": "partial",
   "theorems": [
    "Gensio.LlFd.C86_data_partial",
    "Gensio.LlFd.C86_excl_partial",
    "Gensio.LlFd.C86_handler_partial"
   ],
   "note": "Theorems are for all runs that keep the rules of `fair` (each rule is shown to be needed by a _violated theorem). Eventual reporting is shown as: nothing outstanding at rest; that the system comes to rest is not proved."
  },
  {
   "property": "C87",
   "status": "partial",
   "theorems": [
    "Gensio.LlFd.C87_armed_partial",
    "Gensio.LlFd.C87_open_violated"
   ],
   "note": "Theorems are for all runs that keep the rules of `fair` (each rule is shown to be needed by a _violated theorem). Eventual reporting is shown as: nothing outstanding at rest; that the system comes to rest is not proved."
  },
  {
   "property": "C88",
   "status": "partial",
   "theorems": [
    "Gensio.Pparm.C88_ds_partial",
    "Gensio.Pparm.C88_uint_partial",
    "Gensio.Pparm.C88_int_partial",
    "Gensio.Pparm.C88_drain_partial",
    "Gensio.Pparm.C88_perm_partial",
    "Gensio.Pparm.C88_negative_violated",
    "Gensio.Pparm.C88_large_violated",
    "Gensio.Pparm.C88_uint_violated",
    "Gensio.Pparm.C88_int_violated",
    "Gensio.Pparm.C88_drain_violated",
    "Gensio.Pparm.C88_perm_violated",
    "Gensio.Pparm.C88_default_violated",
    "Gensio.Pparm.C88_digits",
    "Gensio.Pparm.C88_perm_bad",
    "Gensio.Pparm.C88_default_partial"
   ],
   "note": "Numbers that fit are read exactly and non-numbers are refused. The property is false for the code: negative and too large sizes are accepted as other numbers, ints out of range give a message but are accepted truncated, permissions and defaults are truncated."
  },
  {
   "property": "C89",
   "status": "partial",
   "theorems": [
    "Gensio.Pparm.C89_sound_partial",
    "Gensio.Pparm.C89_time_partial",
    "Gensio.Pparm.C89_complete_partial",
    "Gensio.Pparm.C89_negative_violated",
    "Gensio.Pparm.C89_overflow_violated",
    "Gensio.Pparm.C89_large_violated"
   ],
   "note": "Whatever is accepted is a time and the result is its length; decimal numbers with units are accepted if they fit. Missing: completeness for other bases. False for the code: negative nanoseconds, signed overflow, saturation."
  },
  {
   "property": "C90",
   "status": "proved",
   "theorems": [
    "Gensio.Pparm.C90_value",
    "Gensio.Pparm.C90_err",
    "Gensio.Pparm.C90_bool",
    "Gensio.Pparm.C90_boolv",
    "Gensio.Pparm.C90_enum",
    "Gensio.Pparm.C90_mode",
    "Gensio.Pparm.C90_letters"
   ],
   "note": "For all texts, keys and tables."
  },
  {
   "property": "C91",
   "status": "partial",
   "theorems": [
    "Gensio.Pparm.C91_addrs_partial",
    "Gensio.Pparm.C91_addrs_violated"
   ],
   "note": "False for the code when a port is required and missing: success with a freed address; true otherwise. gensio_scan_network_port is represented by its result."
  },
  {
   "property": "C92",
   "status": "partial",
   "theorems": [
    "Gensio.Certauth.C92_authenticated_partial",
    "Gensio.Certauth.C92_result_violated",
    "Gensio.Certauth.C92_stale_violated",
    "Gensio.Certauth.C92_empty_violated",
    "Gensio.Certauth.C92_wrong_violated",
    "Gensio.Certauth.C92_twofa_violated",
    "Gensio.Certauth.C92_twofa_only_violated",
    "Gensio.Certauth.C92_unsigned"
   ],
   "note": "The property is false in the code. Proved for all runs without the events that the code handles wrongly (a RESULT element from the client, a challenge response before the challenge, an empty password when one is required, a password or second factor that the application refuses or does not know); each of them is a bypass, shown by a concrete run."
  },
  {
   "property": "C93",
   "status": "partial",
   "theorems": [
    "Gensio.Certauth.C93_rejected_partial",
    "Gensio.Certauth.C93_rejected_violated"
   ],
   "note": "Proved without require-password; with it a rejected user is authenticated by a password."
  },
  {
   "property": "C94",
   "status": "proved",
   "theorems": [
    "Gensio.Certauth.C94_client_told"
   ],
   "note": "For every client and every run."
  },
  {
   "property": "C95",
   "status": "partial",
   "theorems": [
    "Gensio.Certauth.C95_message",
    "Gensio.Certauth.C95_split",
    "Gensio.Certauth.C95_safe_partial",
    "Gensio.Certauth.C95_boundary_violated",
    "Gensio.Certauth.C95_error_partial",
    "Gensio.Certauth.C95_error_violated"
   ],
   "note": "Whole messages and splits inside of a message are right. Data that ends just after an element makes the filter read behind the data (for every message); that is the only way reading goes wrong. An error is forgotten when a certificate or a challenge response follows in the same data."
  },
  {
   "property": "C96",
   "status": "partial",
   "theorems": [
    "Gensio.Certauth.C96_bound",
    "Gensio.Certauth.C96_output_partial",
    "Gensio.Certauth.C96_output_violated"
   ],
   "note": "The bound holds always. Output is exact if no message is made while another is only partly sent; otherwise write_buf_pos points behind the new message."
  },
  {
   "property": "C97",
   "status": "partial",
   "theorems": [
    "Gensio.Certauth.C97_cleanup_partial",
    "Gensio.Certauth.C97_reopen_violated"
   ],
   "note": "Credentials are gone after cleanup, but state is not reset: every second open fails an assertion."
  },
  {
   "property": "C98",
   "status": "partial",
   "theorems": [
    "Gensio.Certauth.C98_password_partial",
    "Gensio.Certauth.C98_length_violated"
   ],
   "note": "limited_strlen does not advance: the application gets all 100 bytes; the part before the first zero is the password."
  },
  {
   "property": "C99",
   "status": "proved",
   "theorems": [
    "Gensio.Ax25.C99_sequence_arithmetic",
    "Gensio.Ax25.C99_ack_within_queue"
   ],
   "note": ""
  }
 ]
}