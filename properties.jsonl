{"id": "C01", "title": "Circular buffer is a bounded FIFO", "statement": "A gensio circular buffer behaves exactly as a bounded first-in first-out byte queue: every byte accepted by a scatter/gather write is returned exactly once, in order, by later reads (or discarded in order by reads without a destination), whatever the interleaving of writes, reads, zero-copy area operations and resets.", "quantifier": "for every capacity greater than zero and every finite sequence of operations with every data content", "why_tests_cant": "Wrap positions depend on the whole operation history; tests only cover a few wrap points.", "anchors": ["lib/circbuf.c: gensio_circbuf_sg_write, gensio_circbuf_read, gensio_circbuf_next_write_area, gensio_circbuf_data_added, gensio_circbuf_next_read_area, gensio_circbuf_data_removed, gensio_circbuf_reset"]}
{"id": "C02", "title": "Circular buffer never leaves its memory and reports exact room", "statement": "In every reachable state the areas handed out for zero-copy reading and writing lie inside the buffer, free room plus stored length equals the capacity, and a write reports accepting exactly min(requested, room) bytes, which are the first bytes of the scatter list.", "quantifier": "for every reachable state, every scatter/gather list", "why_tests_cant": "An off-by-one only shows at particular wrap positions and particular scatter boundaries.", "anchors": ["lib/circbuf.c: gensio_circbuf_room_left, gensio_circbuf_datalen, gensio_circbuf_next_write_area, gensio_circbuf_sg_write"]}
{"id": "C03", "title": "Output buffer keeps byte order and reports how much it took", "statement": "gensio_buffer_output appends the longest prefix of the data that fits and returns the number of bytes it appended; draining the buffer through a partial-write function emits the stored bytes in order with none lost or repeated, however the sink splits the writes.", "quantifier": "for every buffer size, every stored history, every data and every behaviour of the sink", "why_tests_cant": "Wrap-around plus arbitrary partial writes give an unbounded set of histories.", "anchors": ["lib/buffer.c: gensio_buffer_write, gensio_buffer_output, gensio_buffer_outchar, gensio_buffer_init", "include/gensio/gensio_buffer.h"]}
{"id": "C04", "title": "16 and 32 bit network byte order codecs are inverse", "statement": "Storing a 16 or 32 bit unsigned value and loading it back gives the same value, the stored form is big-endian, and loading then storing gives back the same bytes.", "quantifier": "for all values and all byte pairs/quadruples", "why_tests_cant": "2^32 values.", "anchors": ["lib/utils.c: gensio_u32_to_buf, gensio_buf_to_u32, gensio_u16_to_buf, gensio_buf_to_u16"]}
{"id": "C05", "title": "Quoting a string makes it a single argument again", "statement": "For any NUL-free string, the quoted form produced for a string parses back, with the library's own argument splitter and default separators, as exactly one argument equal to the original string; a list of quoted strings joined by a separator parses to the list.", "quantifier": "for every list of NUL-free strings (including empty strings, quotes, backslashes and separators)", "why_tests_cant": "Strings are unbounded and the hard cases combine escapes and quotes.", "anchors": ["lib/utils.c: gensio_quote_string, gensio_argv_snprintf, gensio_str_to_argv, gettok"]}
{"id": "C06", "title": "The argument splitter is total and never reads past the string", "statement": "Splitting a string terminates for every input and either fails with an invalid-argument error or yields arguments; it consumes no character beyond the terminator or the end character it was told to stop at, and with no quote, escape or end character in the input it is plain splitting on runs of separators.", "quantifier": "for every input string, separator set and end-character set", "why_tests_cant": "Malformed quoting/escape combinations are unbounded.", "anchors": ["lib/utils.c: gensio_str_to_argv_endchar, gettok, gensio_scan_args"]}
{"id": "C07", "title": "Hex and octal escapes give the byte they name", "statement": "In a C-style string parameter, \\xHH yields the byte whose hexadecimal value is HH and \\OOO the byte whose octal value is OOO.", "quantifier": "for all 256 byte values in every letter case, in every context", "why_tests_cant": "Tests use a few digits; letters in hex escapes are a separate path.", "anchors": ["lib/utils.c: gensio_cstr_to_buf, gettok"]}
{"id": "C08", "title": "Linked lists behave as sequences", "statement": "The intrusive doubly linked list used for channels, waiters and operations behaves as a sequence: add at tail, insert before/after a member and removal do exactly that to the sequence seen by forward iteration, and backward iteration always sees the reverse.", "quantifier": "for every finite sequence of operations that respect membership", "why_tests_cant": "Pointer updates interact through arbitrary histories.", "anchors": ["lib/utils.c: gensio_list_init, gensio_list_add_tail, gensio_list_add_next, gensio_list_add_prev, gensio_list_rm, gensio_list_empty", "include/gensio/gensio_list.h"]}
{"id": "C09", "title": "Counted strings are freed exactly when the last reference is dropped", "statement": "A reference counted string stays readable with its original content as long as any holder has not released it, and it is freed exactly once, by the last release.", "quantifier": "for every finite history of make, ref and free operations over any number of strings in which holders release only what they hold", "why_tests_cant": "Leaks and double frees depend on the whole history.", "anchors": ["lib/utils.c: gensio_cntstr_make, gensio_cntstr_ref, gensio_cntstr_free, gensio_cntstr_get"]}
{"id": "C10", "title": "Timer heap always yields the earliest entry and loses nothing", "statement": "After any sequence of insertions and removals (of any member, not only the top) the heap's top is a minimum of the entries currently present, the entries present are exactly those inserted and not removed, and structure links stay consistent.", "quantifier": "for every finite sequence of add/remove operations and every key assignment", "why_tests_cant": "The pointer-rearranging code has many position dependent cases.", "anchors": ["lib/heap.h: HEAP_EXPORT_NAME(add), HEAP_EXPORT_NAME(remove), HEAP_EXPORT_NAME(get_top), send_up, send_down, find_next_pos, find_prev_elem"]}
{"id": "C11", "title": "CRC tables implement the stated polynomials", "statement": "The message CRC functions compute the CRC-16 defined by the CCITT polynomial division (bit by bit), for both the reflected and the MSB-first variants used on the wire.", "quantifier": "for every initial value and every message", "why_tests_cant": "Only finitely many vectors can be tested; a single wrong table entry shows only on particular bytes.", "anchors": ["lib/crc.h: crc16_ccitt, ccitt_table", "lib/gensio_msgdelim.c: crc16, crc16_table"]}
{"id": "C12", "title": "CRC detects every short burst error", "statement": "If a transmitted frame (payload plus its CRC) is altered by a non-empty error confined to 16 consecutive bits, the receiver's CRC check fails.", "quantifier": "for every payload of every length, every burst position, every burst pattern", "why_tests_cant": "The set of payloads and bursts is infinite.", "anchors": ["lib/crc.h: crc16_ccitt", "lib/gensio_hdlc.c: hdlc_handle_new_message", "lib/gensio_msgdelim.c: msgdelim_ll_write"]}
{"id": "C13", "title": "Telnet carries arbitrary binary data transparently", "statement": "Any byte string sent through the telnet layer is escaped so that the peer's receive processing returns exactly the same bytes, however the escaped stream is split into reads and however small the receive chunks are.", "quantifier": "for every byte string, every chunking on the sending side and every chunking on the receiving side", "why_tests_cant": "Escape bytes falling on chunk borders are exponentially many cases.", "anchors": ["lib/telnet.c: process_telnet_xmit, process_telnet_data"]}
{"id": "C14", "title": "Telnet option negotiation terminates", "statement": "Two telnet endpoints negotiating options reach a quiet state: each endpoint answers a request about an option at most a bounded number of times and never answers an acknowledgement of its own request, so no endless option loop can occur.", "quantifier": "for every initial option configuration of both ends and every interleaving of message delivery", "why_tests_cant": "Negotiation loops are a liveness matter over all schedules.", "anchors": ["lib/telnet.c: handle_telnet_cmd, telnet_send_option, process_telnet_data"]}
{"id": "C15", "title": "Telnet command parsing stays inside its buffers", "statement": "No received byte stream can make the telnet command parser write outside its fixed command buffer, and the command passed on never exceeds the buffer.", "quantifier": "for every received byte stream and every chunking", "why_tests_cant": "Adversarial streams are unbounded.", "anchors": ["lib/telnet.c: process_telnet_data", "lib/telnet.h: MAX_TELNET_CMD_SIZE, struct telnet_data_s"]}
{"id": "C16", "title": "Message delimiter layer delivers each message intact", "statement": "With the msgdelim layer on both ends of a byte stream, every message written is delivered to the peer exactly once, byte for byte, with its boundary, in order, whatever the way the stream is chunked.", "quantifier": "for every list of messages within the size limit and every chunking of the stream", "why_tests_cant": "Messages contain arbitrary separator-like bytes and chunk borders fall anywhere.", "anchors": ["lib/gensio_msgdelim.c: msgdelim_ul_write, msgdelim_ll_write"]}
{"id": "C17", "title": "Message delimiter layer stays inside its receive buffer", "statement": "No input byte stream makes the msgdelim receiver write outside the memory allocated for received data.", "quantifier": "for every input stream and every configured read size", "why_tests_cant": "Only adversarial or exactly-full messages reach the boundary.", "anchors": ["lib/gensio_msgdelim.c: msgdelim_ll_write, gensio_msgdelim_filter_raw_alloc"]}
{"id": "C18", "title": "Message delimiter layer recovers after line noise", "statement": "After any corrupted input, once a separator has been received, the next correctly transmitted message is delivered (a damaged message never prevents delivery of later ones) and a message whose check value is wrong is never delivered.", "quantifier": "for every corrupted prefix and every following correct message", "why_tests_cant": "Noise is arbitrary.", "anchors": ["lib/gensio_msgdelim.c: msgdelim_ll_write"]}
{"id": "C19", "title": "KISS layer delivers each frame intact", "statement": "A frame written to the KISS layer and carried over any byte stream is delivered by the peer's KISS layer exactly once with the same bytes and the same TNC port, for any chunking.", "quantifier": "for every frame within the size limit, every port, every chunking", "why_tests_cant": "Escape bytes on chunk borders, arbitrary frames.", "anchors": ["lib/gensio_kiss.c: kiss_ul_write, kiss_ll_write, kiss_add_wrbyte"]}
{"id": "C20", "title": "KISS layer never claims to have sent bytes it dropped", "statement": "The byte count reported as accepted by a KISS write equals the number of bytes that will be put on the wire for that frame, and the write buffer is never overrun.", "quantifier": "for every write request and every history of writes", "why_tests_cant": "Over-long and repeated zero-length requests are not in tests.", "anchors": ["lib/gensio_kiss.c: kiss_ul_write"]}
{"id": "C21", "title": "HDLC bit stuffing is transparent and flag-free", "statement": "For any frame, the bit sequence between the opening and closing HDLC flags never contains six consecutive one bits, and bit-destuffing at the receiver returns exactly the frame, so frame borders can not be forged by data.", "quantifier": "for every frame content", "why_tests_cant": "Bit patterns crossing byte borders are unbounded.", "anchors": ["lib/gensio_hdlc.c: hdlc_add_out_byte, hdlc_add_out_bit, hdlc_process_bit_w"]}
{"id": "C22", "title": "HDLC layer keeps delivering frames indefinitely", "statement": "A receiving HDLC layer delivers every correctly framed, CRC-valid frame of legal size, no matter how many frames have been delivered before.", "quantifier": "for every number of preceding frames and every content", "why_tests_cant": "Tests send only a handful of frames per connection.", "anchors": ["lib/gensio_hdlc.c: hdlc_ll_write, hdlc_handle_new_message, hdlc_deliver_data"]}
{"id": "C23", "title": "HDLC transmit buffer is large enough for every accepted frame", "statement": "Encoding a frame that passes the size check never writes past the transmit buffer allocated for it, for any preamble/postamble configuration.", "quantifier": "for every frame no longer than the maximum write size and every configuration", "why_tests_cant": "Worst-case stuffing is a property of content; tests do not use it.", "anchors": ["lib/gensio_hdlc.c: hdlc_ul_write, gensio_hdlc_filter_raw_alloc"]}
{"id": "C24", "title": "Character translation layer translates each byte once and reports what it took", "statement": "The xlt layer replaces each byte by its table image (deleting/expanding as configured), in order, and the number of input bytes it reports as consumed equals the number it actually took from that call.", "quantifier": "for every translation table, every input, every partial-write behaviour of the neighbour layer", "why_tests_cant": "Partial acceptance histories are unbounded.", "anchors": ["lib/gensio_xlt.c: xlt_ul_write, xlt_ll_write, process_xlt"]}
{"id": "C25", "title": "Reliable packet layer delivers in order without loss or duplication", "statement": "Data delivered to the user of one end of a relpkt connection is always a prefix of the data accepted from the user at the other end, in order, over a network that may lose and duplicate packets and (within the window) reorder them.", "quantifier": "for every schedule of sends, losses, duplications, retransmissions, acknowledgements and user read stalls, of any length, including any number of sequence number wrap-arounds", "why_tests_cant": "Schedules are infinite; wrap-around errors need hundreds of packets and adversarial timing.", "anchors": ["lib/gensio_relpkt.c: relpkt_ul_write, relpkt_ll_write, handle_ack, resend_packets, seq_inside"]}
{"id": "C26", "title": "Reliable packet layer preserves message borders", "statement": "A packet is delivered with the end-of-message mark exactly if the write that completed it carried the mark.", "quantifier": "for every history of writes with and without the mark", "why_tests_cant": "Needs slot reuse after the window wraps.", "anchors": ["lib/gensio_relpkt.c: relpkt_ul_write, relpkt_ll_write"]}
{"id": "C27", "title": "No received packet can abort the process", "statement": "Whatever bytes a relpkt end receives, in any state, it either processes them, ignores them or reports a protocol error; internal assertions are never violated.", "quantifier": "for every sequence of received packets and local operations", "why_tests_cant": "Adversarial packets in specific window states.", "anchors": ["lib/gensio_relpkt.c: relpkt_ll_write, resend_packets, first_xmitpkt_to_send"]}
{"id": "C28", "title": "Open completion is reported exactly once", "statement": "For every open request accepted by a base gensio (returned 0) the open-done callback is called exactly once, with success or an error, unless the gensio is freed first; an open request that is refused never calls it.", "quantifier": "for every interleaving of open, close, free, lower-layer events, timer and deferred-operation scheduling", "why_tests_cant": "Event interleavings are infinite.", "anchors": ["lib/gensio_base.c: basen_open, basen_filter_try_connect, basen_finish_open, basen_deferred_op, basen_ll_open_done"]}
{"id": "C29", "title": "Close completion is reported exactly once and nothing follows it", "statement": "For every accepted close the close-done callback is called exactly once; after it no read, write-ready or error event is delivered until the gensio is opened again.", "quantifier": "for every interleaving of close with reads, writes, errors, timers and lower-layer completions", "why_tests_cant": "Event interleavings are infinite.", "anchors": ["lib/gensio_base.c: basen_close, basen_i_close, basen_filter_try_close, basen_finish_close, basen_ll_close_done"]}
{"id": "C30", "title": "Gensio memory is released once and only when idle", "statement": "A base gensio's memory is released exactly once, only after the user freed it, and never while a callback, timer, deferred operation or lower-layer operation that refers to it is outstanding.", "quantifier": "for every interleaving of user calls and asynchronous completions", "why_tests_cant": "Use-after-free depends on schedules.", "anchors": ["lib/gensio_base.c: basen_ref, basen_deref_and_unlock, basen_free, basen_finish_free"]}
{"id": "C31", "title": "Mux channel numbers in use are distinct", "statement": "At any time no two live channels of a mux have the same local channel number, so every received channel number designates at most one channel.", "quantifier": "for every history of channel creations and removals and every channel limit", "why_tests_cant": "The number allocator wraps around; collisions need long histories.", "anchors": ["lib/gensio_mux.c: mux_new_channel, next_chan_id, mux_get_channel"]}
{"id": "C32", "title": "Mux flow control never exceeds the peer's window", "statement": "The bytes sent on a mux channel and not yet acknowledged never exceed the receive window announced by the peer, so a conforming sender never overruns the peer's buffer and never triggers its protocol-error shutdown.", "quantifier": "for every history of writes, sends and acknowledgements, every window and every service string", "why_tests_cant": "Counters interact over arbitrary histories.", "anchors": ["lib/gensio_mux.c: muxc_write, chan_setup_send_data, chan_setup_send_new_channel, mux_child_read (MUX_DATA)"]}
{"id": "C33", "title": "Mux channel data arrives unchanged with message borders", "statement": "The data delivered on a mux channel is the concatenation of the data accepted for writing at the other end, in order, with each end-of-message and out-of-band mark on the right data, for any buffer wrap position and any partial reads by the user.", "quantifier": "for every history of writes, partial reads and buffer sizes", "why_tests_cant": "Ring-buffer position times partial read combinations are unbounded.", "anchors": ["lib/gensio_mux.c: muxc_write, chan_addwrbuf, chan_setup_send_data, chan_addrdbuf, chan_check_read"]}
{"id": "C34", "title": "Mux byte stream is always well framed", "statement": "The byte stream a mux puts on its child is at all times a prefix of a concatenation of complete protocol messages, however the child splits writes and whatever messages arrive in between.", "quantifier": "for every interleaving of partial child writes with received messages", "why_tests_cant": "Needs a partial write at the instant a particular message is received.", "anchors": ["lib/gensio_mux.c: mux_child_write_ready, mux_child_read (MUX_NEW_CHANNEL_RSP)"]}
{"id": "C35", "title": "Mux header parsing uses only bytes of the message", "statement": "A received mux message is accepted only if its header contains all the fields its type requires; fields are never taken from an earlier message.", "quantifier": "for every received byte stream and chunking", "why_tests_cant": "Malformed headers are adversarial.", "anchors": ["lib/gensio_mux.c: mux_child_read, mux_msg_hdr_sizes"]}
{"id": "C36", "title": "Rate limiter never exceeds its rate and never reorders", "statement": "The ratelimit layer passes at most the configured number of bytes per delay period, passes data unmodified and in order, and after each delay period writing becomes possible again.", "quantifier": "for every sequence of writes, timer expiries and lower-layer partial writes", "why_tests_cant": "Timing interleavings are infinite.", "anchors": ["lib/gensio_ratelimit.c: ratelimit_ul_write, ratelimit_filter_timeout"]}
{"id": "C37", "title": "Character delay layer keeps data in order and bounds the delay", "statement": "The chardelay layer forwards exactly the accepted bytes in order, reads only bytes the caller supplied, and the timer it sets never lets the first held byte wait longer than the configured maximum.", "quantifier": "for every sequence of writes at any times, timer expiries and partial lower-layer writes", "why_tests_cant": "Timing interleavings are infinite; out-of-bounds reads are invisible to functional tests.", "anchors": ["lib/gensio_chardelay.c: chardelay_ul_write, chardelay_filter_start_timer, chardelay_filter_timeout"]}
{"id": "C38", "title": "Time arithmetic is exact", "statement": "Adding times, comparing times and taking the difference of two times agree with integer arithmetic on nanoseconds, and additions of well-formed times give well-formed times (0 <= nanoseconds < 1e9).", "quantifier": "for all well-formed times in range and all nanosecond increments", "why_tests_cant": "Boundary values such as exactly one second carry.", "anchors": ["lib/gensio.c: gensio_time_add, gensio_time_add_nsecs, gensio_time_diff_nsecs, gensio_time_cmp"]}
{"id": "C39", "title": "Time conversions are consistent", "statement": "Converting a number of nano/micro/milliseconds to a time and back returns the same number, and conversion results are well-formed times.", "quantifier": "for every 64-bit count in range, including negative ones", "why_tests_cant": "Unbounded values.", "anchors": ["lib/gensio.c: gensio_time_to_nsecs, gensio_nsecs_to_time, gensio_time_to_msecs, gensio_msecs_to_time, gensio_time_to_usecs, gensio_usecs_to_time"]}
{"id": "C40", "title": "Synchronous reads partition the input", "statement": "The data returned by synchronous reads on one gensio is a partition, in order, of the data consumed from the gensio: no byte is returned twice and none is lost, also when several reads wait at the same time.", "quantifier": "for every set of concurrently waiting reads and every delivery size", "why_tests_cant": "Requires several readers waiting at once and particular sizes.", "anchors": ["lib/gensio.c: gensio_syncio_event, i_gensio_read_s"]}
{"id": "C41", "title": "Synchronous writes are transmitted in order and counted exactly", "statement": "Data of synchronous writes is passed to the gensio in the order the writes were queued, each write's reported count is exactly the number of its bytes passed on, also on timeout or error.", "quantifier": "for every queue of writes, every partial-acceptance behaviour and every timeout point", "why_tests_cant": "Interleaving of partial writes and timeouts.", "anchors": ["lib/gensio.c: gensio_syncio_event, i_gensio_write_s"]}
{"id": "C42", "title": "Convolutional code size computations are exact", "statement": "The predicted encoded size equals the number of bits the encoder emits, with and without tail and with puncturing, and the decoded-size computation inverts it.", "quantifier": "for every message length, number of polynomials, constraint length and puncture pattern", "why_tests_cant": "Parameter space is infinite.", "anchors": ["lib/convcode.c: convcode_encoded_size, convcode_decoded_size, convencode_bit, convencode_finish"]}
{"id": "C43", "title": "Viterbi decoding returns a most likely message", "statement": "The decoder's output is a message whose encoding has minimal distance to the received symbols among all messages (hard and soft decision, full-width trellis), and the reported error count is that distance.", "quantifier": "for every code, every received sequence of every length within the metric range", "why_tests_cant": "Exponentially many candidate messages.", "anchors": ["lib/convcode.c: decode_one_state, convdecode_symbol_i, convdecode_finish"]}
{"id": "C44", "title": "Convolutional decode inverts encode", "statement": "Decoding an uncorrupted encoding of a message returns the message with zero errors, and any corruption smaller than half the code distance is corrected.", "quantifier": "for every message and every code whose encoding map is injective on messages of that length", "why_tests_cant": "Messages are unbounded.", "anchors": ["lib/convcode.c: convencode_data, convdecode_data, convdecode_finish"]}
{"id": "C45", "title": "Convcode layer keeps delivering messages indefinitely", "statement": "A receiving convcode layer delivers every decodable message no matter how many messages were delivered before.", "quantifier": "for every number of preceding messages", "why_tests_cant": "Tests stop after few messages.", "anchors": ["lib/gensio_convcode.c: convcode_ll_write"]}
{"id": "C46", "title": "AX.25 address wire codec is inverse", "statement": "Encoding an address to the AX.25 wire format and decoding gives the same destination, source, digipeater list, SSIDs and flags, consumes exactly the encoded length, and malformed data is rejected without reading past the end.", "quantifier": "for every address with up to the maximum number of digipeaters and every byte string", "why_tests_cant": "Combinatorial address space, adversarial input.", "anchors": ["lib/net_ax25_addr.c: ax25_addr_encode, decode_ax25_addr, decode_ax25_subaddr, encode_ax25_subaddr, ax25_addr_encode_len"]}
{"id": "C47", "title": "AX.25 address text form is inverse", "statement": "Converting an AX.25 address to text and parsing the text gives an equal address, including the TNC port.", "quantifier": "for every valid address", "why_tests_cant": "Combinatorial address space.", "anchors": ["lib/net_ax25_addr.c: ax25_addr_to_str, gensio_ax25_str_to_addr, ax25_str_to_subaddr, gensio_ax25_addr_alloc"]}
{"id": "C48", "title": "Serial port locking is mutually exclusive", "statement": "At no time do two processes both believe they hold the UUCP lock of the same device.", "quantifier": "for every interleaving of file-system steps of any number of processes locking and unlocking the device, including processes that died leaving stale lock files", "why_tests_cant": "Race conditions over all interleavings.", "anchors": ["lib/seriallock.c: uucp_mk_lock, check_lock_file, uucp_rm_lock"]}
{"id": "C49", "title": "Serial port lock survives crashes", "statement": "If a lock holder, or a process in the middle of taking the lock, crashes at any point, another process can later obtain the lock.", "quantifier": "for every crash point of the locking procedure", "why_tests_cant": "Crash points inside the procedure cannot be exercised by unit tests.", "anchors": ["lib/seriallock.c: uucp_mk_lock, check_lock_file"]}
{"id": "C50", "title": "Timeouts handed to the operating system are well-formed and accurate", "statement": "Converting a well-formed gensio time to a struct timeval, or adding it to one, gives a timeval with 0 <= tv_usec < 1000000 that differs from the exact time by at most half a microsecond.", "quantifier": "for all well-formed times and timevals", "why_tests_cant": "The failing values are single nanosecond offsets near a second border.", "anchors": ["lib/os_unix.c: add_to_timeval, gensio_time_to_timeval, timeval_to_gensio_time"]}
{"id": "C51", "title": "Telnet commands and user data never cut into each other", "statement": "Whatever user data is written and whatever telnet commands are queued while the lower layer accepts any part of what it is offered, the peer decodes exactly the user data accepted, in order, and exactly the commands queued, in order: a command is never placed inside an escaped data block, inside another command, or truncated.", "quantifier": "for every sequence of writes and queued commands and every partial acceptance by the lower layer", "why_tests_cant": "Partial writes at every byte position interleaved with command arrival are unbounded.", "anchors": ["lib/sergensio_telnet.c: telnet_ul_write", "lib/telnet.c: telnet_cmd_send, telnet_send_option, process_telnet_xmit, process_telnet_data"]}
{"id": "C52", "title": "KISS receiver recovers after line noise", "statement": "After any received bytes whatever, the next frames transmitted correctly are all delivered, exactly once and in order; damaged or over-long frames only affect themselves, and no input makes the receiver leave its buffer.", "quantifier": "for every noise prefix, every following list of frames and every chunking", "why_tests_cant": "Noise is arbitrary.", "anchors": ["lib/gensio_kiss.c: kiss_ll_write"]}
{"id": "C53", "title": "KISS client sets the TNC parameters at start", "statement": "On connect a KISS client sends, for each configured port, the parameter frames (txdelay, persistence, slot time, full duplex, hardware) as KISS frames the TNC can recognise.", "quantifier": "for every configuration of ports and parameters", "why_tests_cant": "Tests use a KISS peer that ignores parameter frames, so missing ones are not noticed.", "anchors": ["lib/gensio_kiss.c: kiss_try_connect, gensio_kiss_filter_alloc, kiss_add_wrbyte"]}
{"id": "C54", "title": "HDLC working message table stays consistent", "statement": "Whatever bits arrive with whatever uncertainties, the HDLC receiver's count of working messages equals the number of slots in use and is at least one, no working message exceeds its read buffer, and every message queued for delivery passed the CRC check.", "quantifier": "for every bit sequence, every uncertainty sequence and every number of working messages", "why_tests_cant": "The number of split hypotheses grows exponentially; tests use clean signals.", "anchors": ["lib/gensio_hdlc.c: hdlc_process_bit_w, hdlc_drop_wmsg, hdlc_handle_new_byte, hdlc_handle_new_message"]}
{"id": "C55", "title": "HDLC sender transmits each accepted frame exactly once", "statement": "The bytes taken by the lower layer are exactly the encoded frames of the accepted writes, in order, each exactly once, whatever part of each offer the lower layer takes and whatever writes (including empty ones) the user makes.", "quantifier": "for every sequence of writes and every acceptance schedule", "why_tests_cant": "Partial lower-layer acceptance and empty scatter/gather writes are rare in tests.", "anchors": ["lib/gensio_hdlc.c: hdlc_ul_write, hdlc_handle_send"]}
{"id": "C56", "title": "HDLC receiver processes exactly the bits received", "statement": "The receiver processes exactly the first nbits bits handed to it, with the values received, when a bit count is supplied, and with a single working message no bit is altered.", "quantifier": "for every buffer, bit count, and uncertainty array", "why_tests_cant": "Padding bits are usually harmless, so a loop that ignores the bit count passes tests; wmsgs=1 is not tested.", "anchors": ["lib/gensio_hdlc.c: hdlc_ll_write, hdlc_process_bit_w"]}
{"id": "C57", "title": "Translation tables are what the configuration says", "statement": "The tables built from the xlt arguments map each byte to the value of the last argument naming it, and every out-of-range number is rejected; a boolean shortcut given as false has no effect.", "quantifier": "for every list of arguments", "why_tests_cant": "Argument combinations and out-of-range values are not enumerated by tests.", "anchors": ["lib/gensio_xlt.c: process_xlt, gensio_xlt_config"]}
{"id": "C58", "title": "Send-on strings are found when they occur", "statement": "The character delay layer's scanner reports a send-on string exactly when it occurs in the byte stream written.", "quantifier": "for every set of strings and every stream, split over any writes", "why_tests_cant": "Self-overlapping patterns are rarely tested.", "anchors": ["lib/gensio_chardelay.c: chardelay_ul_write"]}
{"id": "C59", "title": "Parsing a subaddress depends only on its text", "statement": "The subaddress obtained from a text does not depend on what was in the structure before.", "quantifier": "for every text and every previous content of the structure", "why_tests_cant": "Stack garbage is usually zero in tests.", "anchors": ["lib/net_ax25_addr.c: ax25_str_to_subaddr", "lib/gensio_ax25.c: ax25_chan_control"]}
{"id": "C60", "title": "Lists of AX.25 addresses are parsed", "statement": "An laddr or uiaddr value listing several valid subaddresses separated by semicolons is accepted and gives all of them in order.", "quantifier": "for every non-empty list of valid subaddresses", "why_tests_cant": "Needs configurations with several addresses.", "anchors": ["lib/gensio_ax25.c: ax25_scan_laddrs"]}
{"id": "C61", "title": "AX.25 subaddress syntax", "statement": "Exactly the documented texts callsign[-n][:c|r|h] with one to six letters and digits and n from 0 to 15 are accepted, with the value they name.", "quantifier": "for every text", "why_tests_cant": "Infinite input space.", "anchors": ["lib/net_ax25_addr.c: ax25_str_to_subaddr"]}
{"id": "C62", "title": "Named escapes give the character they name", "statement": "In strings with escapes, a backslash and a, b, f, n, r, t or v gives the C control character and a backslash and another non-numeric character gives that character, in any context.", "quantifier": "for every context", "why_tests_cant": "Infinite contexts.", "anchors": ["lib/utils.c: strtobuf"]}
{"id": "C63", "title": "Convolutional encoder computes the convolution", "statement": "The bits emitted by the stream encoder are exactly the convolution of the message and its tail with the configured polynomials (with feedback for recursive codes), punctured by the pattern and packed low bit first, and the reported total is their number.", "quantifier": "for every code, puncture pattern, message and message length", "why_tests_cant": "The specification is over unbounded messages and all codes; tests compare a few known vectors.", "anchors": ["lib/convcode.c: setup_convcode2, convencode_bit, convencode_data, convencode_finish, output_bits, output_bits_puncture"]}
{"id": "C64", "title": "Convolutional decoding is independent of chunking", "statement": "Feeding received bits to the decoder in pieces leads to the same decoder state as feeding them at once.", "quantifier": "for every split at any bit position, with and without puncturing and soft decisions", "why_tests_cant": "Split positions and leftover states are unbounded.", "anchors": ["lib/convcode.c: extract_sym, convdecode_data, convdecode_data_u"]}
{"id": "C65", "title": "Convolutional block encoder and decoder", "statement": "The block encoder writing into a zeroed array writes exactly the encoding the stream encoder emits, stays within the array and reports its length, also for data in pieces; the block decoder gives the message back.", "quantifier": "for every code, puncture pattern, message and array with room for the encoding", "why_tests_cant": "Bit offsets of symbols spanning bytes, all codes and unbounded messages.", "anchors": ["lib/convcode.c: convencode_block_bit, convencode_block_partial, convencode_block_final, convencode_block, convdecode_block"]}
{"id": "C66", "title": "Reliable packet layer takes every valid acknowledgement", "statement": "An acknowledgement for packets that are outstanding is accepted and drops just these packets; any other acknowledgement is refused and changes nothing.", "quantifier": "for every reachable state with any number of outstanding packets and every acknowledgement number", "why_tests_cant": "Needs every window position relative to the wrap of the 8 bit sequence numbers, and full windows.", "anchors": ["lib/gensio_relpkt.c: handle_ack, seq_inside"]}
{"id": "C67", "title": "Correct ends never see a protocol error", "statement": "Two correct relpkt ends connected by a network that only loses packets never report a protocol error to each other.", "quantifier": "for every schedule of sends, losses, timeouts and deliveries", "why_tests_cant": "Depends on the order of a pending resend request, a timeout retransmission and data carrying an acknowledgement.", "anchors": ["lib/gensio_relpkt.c: relpkt_ll_write, relpkt_ul_write, request_resend"]}
{"id": "C68", "title": "Mux channels do not disturb each other", "statement": "What one channel of a mux does, or what arrives for one channel, changes only that channel: closing, being refused, being closed by the other end or receiving data never alters another channel's data, windows or state, and does not take the mux down.", "quantifier": "all mux states, all user calls and all received messages", "why_tests_cant": "Tests open and close channels one at a time; the shared lists, counters and the shared message parser only go wrong for particular overlaps of a refusal, a close and data on other channels.", "anchors": ["lib/gensio_mux.c:2366-2437 (MUX_NEW_CHANNEL_RSP)", "lib/gensio_mux.c:2439-2464 (MUX_CLOSE_CHANNEL)", "lib/gensio_mux.c:2330-2364 (MUX_NEW_CHANNEL)"]}
{"id": "C69", "title": "Mux never forgets to ask for the write callback", "statement": "While a mux that is not closed has something to send (a message being sent, a channel waiting to send, or its own control message), the child's write callback is enabled.", "quantifier": "all histories from start, all partial child writes", "why_tests_cant": "A lost enable only shows as a hang after a partial write at one particular moment with nothing else going on.", "anchors": ["lib/gensio_mux.c:2056-2190 (mux_child_write_ready)", "lib/gensio_mux.c:763-793 (muxc_add_to_wrlist)"]}
{"id": "C70", "title": "Mux gives the send window back", "statement": "For two joined muxes, once every byte written to the child streams in either direction has arrived, and the receiving end of a channel has handed over all its data and owes no acknowledgement, the sending end of that channel has its whole window again (sent_unacked is zero).", "quantifier": "all histories of writes, read enables, callback answers, partial child writes and deliveries, from any opened session, any window sizes", "why_tests_cant": "Tests look at data, not at the accounting; a window that leaks a few bytes per message only shows after the window has been used up, and only for some message sizes.", "anchors": ["lib/gensio_mux.c:1030-1060 (chan_deliver_read_data)", "lib/gensio_mux.c:1983-2050 (chan_setup_send_data)", "lib/gensio_mux.c:2470-2495 (ack handling)"]}
{"id": "C71", "title": "Mux does not deadlock", "statement": "Two joined muxes never come to rest with data undelivered: when nothing is being sent or waiting in the child streams and the receivers have taken what they were given, then everything that was written has been received.", "quantifier": "all histories of writes, read enables, callback answers, partial child writes and deliveries from an opened session", "why_tests_cant": "A deadlock needs window, acknowledgement and pending flags to line up in a particular way; tests that hang are retried as flaky.", "anchors": ["lib/gensio_mux.c:1983-2050 (chan_setup_send_data)", "lib/gensio_mux.c:1030-1081", "lib/gensio_mux.c:2466-2491"]}
{"id": "C72", "title": "Mux closes its child with its last channel", "statement": "The mux starts closing its child when its last channel is closed, and not while a channel is still open: nr_not_closed is the number of channels that are not closed.", "quantifier": "all histories of opening, refusing, closing and receiving", "why_tests_cant": "A count that is off by one only shows when all channels are closed after an earlier refusal or failure.", "anchors": ["lib/gensio_mux.c:795-864 (mux_channel_finish_close)", "lib/gensio_mux.c:2395-2404", "lib/gensio_mux.c:2636", "lib/gensio_mux.c:1694-1773"]}
{"id": "C73", "title": "Mux peer cannot overrun receive buffers or reuse a channel number", "statement": "Whatever bytes the other end sends, the receive buffer of a channel never holds more than its size; a data message that does not fit with its three header bytes makes the mux give up the connection with nothing stored and one that fits is taken; a request for a new channel with a remote number that is in use is refused and one with a free number makes a channel with that number.", "quantifier": "all histories of user calls, child writes and received bytes, including hostile ones", "why_tests_cant": "Overrunning a buffer needs a message length that is wrong by one to three bytes for the current fill level, sent by a peer that ignores the window; tests use the same code on both ends.", "anchors": ["lib/gensio_mux.c:2512-2552", "lib/gensio_mux.c:315-334 (chan_addrdbuf)", "lib/gensio_mux.c:2223-2239 (mux_find_remote_id)", "lib/gensio_mux.c:2330-2364"]}
{"id": "C74", "title": "Selector timers follow their discipline", "statement": "For every sequence of calls and thread steps on the Unix selector in which the program uses only timers it allocated and did not free: start is refused exactly when the timer waits for its time or its done handler; stop returns success exactly when an accepted start was neither stopped nor run; a handler is called only for a live, started, unstopped, due timer that is earliest, and never while another handler of that timer runs; no freed memory is touched; handlers are called at most once per accepted start.", "quantifier": "all interleavings of any number of threads, timers, times, and calls from inside handlers", "why_tests_cant": "Interleavings of several threads with frees and restarts inside handlers are unbounded; a test sees few of them.", "anchors": ["lib/os_unix_selector.c:882-1113", "lib/os_unix_selector.c:1640-1735", "lib/heap.h:81-420"]}
{"id": "C75", "title": "No due timer is left behind", "statement": "A thread that begins to wait in the selector, or leaves it without having waited, has dealt with every timer that was due when it entered, waits no longer than until the earliest timer, and does not wait while a done handler is outstanding.", "quantifier": "all reachable states and interleavings", "why_tests_cant": "Depends on the interleaving of timer changes with the loop of process_timers.", "anchors": ["lib/os_unix_selector.c:1046-1113", "lib/os_unix_selector.c:1655-1686"]}
{"id": "C76", "title": "An accepted stop with done handler gets its done handler exactly once", "statement": "Each sel_stop_timer_with_done that returned 0 leads to exactly one call of the done handler.", "quantifier": "all histories", "why_tests_cant": "The failing histories need a stop or free between the acceptance and the call of the done handler.", "anchors": ["lib/os_unix_selector.c:904-944", "lib/os_unix_selector.c:990-1028", "lib/os_unix_selector.c:1073-1091", "include/gensio/gensio_os_funcs.h:442-457"]}
{"id": "C77", "title": "A waiting selector thread wakes for every timer", "statement": "Whenever all threads wait in the selector, each started timer has a thread that wakes no later than its time or was signalled, and no done handler is outstanding.", "quantifier": "all interleavings of a pool of threads", "why_tests_cant": "A lost wakeup shows as a delay only in a particular interleaving.", "anchors": ["lib/os_unix_selector.c:357-413", "lib/os_unix_selector.c:946-1028", "lib/os_unix_selector.c:1084-1091"]}
{"id": "C78", "title": "Each accepted runner is run exactly once", "statement": "sel_run is refused exactly when a call of the runner is outstanding, sel_free_runner too; for each accepted sel_run the function is called exactly once, except for the one that is outstanding; no freed runner is used.", "quantifier": "all interleavings of threads and calls", "why_tests_cant": "Runners requeue and free themselves from inside their functions and from several threads.", "anchors": ["lib/os_unix_selector.c:1115-1197"]}
{"id": "C79", "title": "A queued runner wakes a waiting thread", "statement": "While a runner is queued and a thread waits in the selector, some waiting thread has been signalled and will take the whole queue; no thread begins to wait while a runner is queued.", "quantifier": "all interleavings", "why_tests_cant": "A lost wakeup shows only in particular interleavings.", "anchors": ["lib/os_unix_selector.c:382-392", "lib/os_unix_selector.c:1144-1197", "lib/os_unix_selector.c:1661-1728"]}
{"id": "C80", "title": "Handlers of a file descriptor keep to the protocol of their registration", "statement": "For every registration of descriptor handlers (sel_set_fd_handlers): handlers are called only between the registration and its clear or replacement; after a clear with report or a replacement the cleared callback is called exactly once with the registration's data, after the last running handler has returned and before the memory is released; memory is released exactly once and never used afterwards; a registration that was not cleared is not lost.", "quantifier": "for every interleaving of threads in sel_select, in handlers and in calls that set, clear, enable or disable handlers, and of runners", "why_tests_cant": "The schedules of threads around the unlocked handler calls are infinite; the losing ones need exact timing.", "anchors": ["lib/os_unix_selector.c: sel_set_fd_handlers, i_sel_clear_fd_handler, handle_selector_call, finish_oldstate, process_fds_epoll"]}
{"id": "C81", "title": "Timeval arithmetic of the selector", "statement": "For normal times diff_timeval gives the difference cut at zero and add_timeval the sum, both in normal form (microseconds below one million).", "quantifier": "all normal times", "why_tests_cant": "The failing sums are one in a million.", "anchors": ["lib/os_unix_selector.c:845-880"]}
{"id": "C82", "title": "Synchronous accepts get each connection once", "statement": "While an accepter is synchronous, every incoming connection is returned by exactly one gensio_acc_accept_s call or freed at shutdown, in order of arrival; an accept reports a closed accepter only after shutdown; and no accept goes on waiting while a connection is available and no other accept has been woken for it.", "quantifier": "for every interleaving of connections, accepting threads, timeouts, interrupts and shutdown", "why_tests_cant": "Needs races between several accepting threads.", "anchors": ["lib/gensio.c: gensio_acc_cb, i_gensio_acc_accept_s, gensio_acc_shutdown"]}
{"id": "C83", "title": "The epoll set agrees with the registrations and no enabled event is lost", "statement": "With epoll, the descriptor is in the epoll set exactly when it has a registration and has not hung up, so epoll_ctl never fails; whenever a registration exists and no thread works on one of its events, every enabled direction is armed; events from before a clear lead to no handler call.", "quantifier": "for every interleaving of set, clear, enable, disable, hang ups, errors and threads in epoll_pwait", "why_tests_cant": "The one-shot arming and the removal after a hang up interact with concurrent changes of the enables; the number of interleavings is unbounded.", "anchors": ["lib/os_unix_selector.c: sel_update_fd, process_fds_epoll, sel_set_fd_handlers, i_sel_clear_fd_handler, sel_set_fd_read_handler, sel_set_fd_write_handler, sel_set_fd_except_handler"]}
{"id": "C84", "title": "The descriptor layer reports each open and close exactly once", "statement": "Each open accepted by fd_open is reported to its callback exactly once and each close accepted by fd_close exactly once, in order and never left outstanding when nothing is scheduled (except an open that waits on an armed descriptor); no assertion fails.", "quantifier": "for every interleaving of user calls, selector callbacks, the timer, the runner and any number of threads, with any results of the system calls", "why_tests_cant": "Opens, closes, errors, deferred operations and callbacks running without the lock interleave; the number of interleavings is unbounded.", "anchors": ["lib/ll_fd.c: fd_open, fd_close, fd_finish_open, fd_finish_close, fd_deferred_op, fd_cleared, fd_timeout, fd_check_close, fd_handle_write_ready"]}
{"id": "C85", "title": "The descriptor layer neither leaks nor reuses its structure and descriptors", "statement": "The structure is released exactly when the user has freed it and no thread, runner, timer or descriptor refers to it; each descriptor is closed exactly once and none is lost.", "quantifier": "for every interleaving of user calls, selector callbacks, the timer, the runner and any number of threads, with any results of the system calls", "why_tests_cant": "Opens, closes, errors, deferred operations and callbacks running without the lock interleave; the number of interleavings is unbounded.", "anchors": ["lib/ll_fd.c: fd_ref, fd_deref, fd_deref_and_unlock, fd_free, fd_start_timer, fd_stop_timer, fd_sched_deferred_op, fd_finish_cleared, fd_start_close"]}
{"id": "C86", "title": "The descriptor layer delivers what it reads, once and in order, without overlapping callbacks", "statement": "The bytes taken by the read callback followed by the buffered bytes are the bytes read since the open; at most one thread is in the read callback and at most one in the write callback; a handler runs only on the descriptor in use.", "quantifier": "for every interleaving of user calls, selector callbacks, the timer, the runner and any number of threads, with any results of the system calls", "why_tests_cant": "Opens, closes, errors, deferred operations and callbacks running without the lock interleave; the number of interleavings is unbounded.", "anchors": ["lib/ll_fd.c: fd_handle_incoming, fd_deliver_read_data, fd_deferred_op, fd_handle_write_ready, fd_except_ready"]}
{"id": "C87", "title": "Enabled callbacks of the descriptor layer are armed", "statement": "When the layer is open and nothing is running or scheduled, an enabled read callback has an empty buffer and an armed read handler, and an enabled write callback has an armed write handler.", "quantifier": "for every interleaving of user calls, selector callbacks, the timer, the runner and any number of threads, with any results of the system calls", "why_tests_cant": "Opens, closes, errors, deferred operations and callbacks running without the lock interleave; the number of interleavings is unbounded.", "anchors": ["lib/ll_fd.c: fd_set_read_callback_enable, fd_set_write_callback_enable, fd_finish_open, fd_deferred_op, fd_handle_incoming"]}
{"id": "C88", "title": "Numbers in parameters are read as they are or refused", "statement": "A text that is a C integer and fits the type is stored as its value; any other text gives a message and an error, and nothing is stored.", "quantifier": "for every text of a parameter and every key", "why_tests_cant": "The texts are unbounded; the interesting ones (bases, signs, saturation, truncation) are rare.", "anchors": ["lib/gensio.c: gensio_pparm_ds, gensio_pparm_uint, gensio_pparm_int, gensio_pparm_perm, gensio_set_default"]}
{"id": "C89", "title": "Times in parameters are read as the sum of their parts", "statement": "A text is accepted exactly when it is a sequence of numbers with units (all but the last of a second or more), and the result is the sum, with non-negative nanoseconds below one second; otherwise an error is returned without undefined behaviour.", "quantifier": "for every text of a parameter and every key and every default unit", "why_tests_cant": "The texts are unbounded; the interesting ones (bases, signs, saturation, truncation) are rare.", "anchors": ["lib/gensio.c: gensio_str_to_time, gensio_pparm_time"]}
{"id": "C90", "title": "Keys, truth values, enumerations and modes have the documented syntax", "statement": "A parameter has a key exactly when it is the key ignoring case, an equal sign and a value; truth values, enumerations and modes are accepted exactly for the documented words.", "quantifier": "for every text of a parameter and every key", "why_tests_cant": "The texts are unbounded; the interesting ones (bases, signs, saturation, truncation) are rare.", "anchors": ["lib/gensio.c: gensio_pparm_value, gensio_pparm_bool, gensio_pparm_boolv, gensio_pparm_enum, gensio_pparm_mode"]}
{"id": "C91", "title": "An address from a parameter is valid", "statement": "When gensio_pparm_addrs returns success the stored address has not been freed.", "quantifier": "for every parameter, key and result of scanning the address", "why_tests_cant": "The failing path needs a required port that is missing, which no caller in the tree asks for; tests do not reach it.", "anchors": ["lib/gensio.c: gensio_pparm_addrs"]}
{"id": "C92", "title": "A server only reports a peer as authenticated when it has seen what it asked for", "statement": "When the certauth filter of a server finishes the handshake and marks the connection as authenticated, then the lower layer vouched for the peer, or the application accepted it, or a certificate was accepted and its owner signed a challenge made in this session, or the application accepted a password; if a password is required it was accepted, and if a second factor is required it was accepted.", "quantifier": "for every configuration, every sequence of bytes from the peer split in any way, every answer of the application, every interleaving of calls", "why_tests_cant": "The peer chooses the bytes; tests only run the honest client, and a single missing check in one state is a bypass.", "anchors": ["lib/gensio_certauth.c: certauth_try_connect :1187-1750", "lib/gensio_certauth.c: certauth_handle_new_element :1811-2005", "lib/gensio_certauth.c: certauth_check_open_done :680-699"]}
{"id": "C93", "title": "A peer rejected by the application is refused", "statement": "If the application answers GE_AUTHREJECT to the AUTH_BEGIN or PRECERT_VERIFY event, the open does not succeed, even if failed authentication is allowed.", "quantifier": "for every configuration, peer and interleaving", "why_tests_cant": "Needs all later states with all later credentials.", "anchors": ["lib/gensio_certauth.c: certauth_try_connect :1280-1296, :1424-1441", "lib/gensio_certauth.c: certauth_check_open_done :680-699"]}
{"id": "C94", "title": "A client only succeeds if the server said so", "statement": "When the certauth filter of a client finishes the handshake, it has received a RESULT element with success from the server, and the open succeeds.", "quantifier": "for every configuration, every sequence of bytes from the server, every interleaving", "why_tests_cant": "A hostile server chooses the bytes.", "anchors": ["lib/gensio_certauth.c: certauth_try_connect :1324-1355, :1704-1719"]}
{"id": "C95", "title": "Authentication messages are read the same however they are split, safely, with errors kept", "statement": "A message is taken as a whole: every element once and in order, nothing after the end; splitting the data does not change the result; no byte outside of the data is read; an error in a message is still an error at its end.", "quantifier": "for every list of elements, every split, every reachable state", "why_tests_cant": "The number of splits and contents is unbounded; a read of one byte after the data is rarely visible.", "anchors": ["lib/gensio_certauth.c: certauth_ll_write :2007-2139", "lib/gensio_certauth.c: certauth_handle_new_element :1811-2005"]}
{"id": "C96", "title": "Authentication output stays in its buffer and reaches the peer as written", "statement": "The write buffer never overflows, and the lower layer gets exactly the bytes of the messages in order, however many bytes it takes at a time.", "quantifier": "for every run and every sequence of partial writes", "why_tests_cant": "Partial writes during the handshake need a slow lower layer together with an early peer.", "anchors": ["lib/gensio_certauth.c: certauth_write :701-711", "lib/gensio_certauth.c: certauth_ul_write :1752-1797"]}
{"id": "C97", "title": "A certauth gensio can be opened again after it is closed", "statement": "After cleanup no credential or result of the old session is left, and a new handshake can be done.", "quantifier": "for every filter that finished a handshake", "why_tests_cant": "Tests open each gensio once.", "anchors": ["lib/gensio_certauth.c: certauth_setup :2141-2153", "lib/gensio_certauth.c: certauth_cleanup :2155-2212"]}
{"id": "C98", "title": "The application is given the password that the client sent", "statement": "The password in the PASSWORD_VERIFY event is the password of the client, with its length.", "quantifier": "for every password shorter than 100 bytes", "why_tests_cant": "A wrong length is invisible to an application that uses strcmp.", "anchors": ["lib/gensio_certauth.c: limited_strlen :1799-1809", "lib/gensio_certauth.c: certauth_handle_new_element :1811-2005"]}
{"id": "C99", "title": "AX.25 sequence arithmetic is arithmetic modulo the window", "statement": "sub_seq and add_seq compute differences and sums of sequence numbers modulo 8 or 128 (or of queue positions modulo the queue size), seq_in_range is true exactly of the numbers between its ends going up around the modulus, and an acknowledgement number that ax25_chan_seq_in_range accepts takes no more packets from the write queue than are in it.", "quantifier": "for all pairs of sequence numbers below a modulus of at most 128, and all channels", "why_tests_cant": "the numbers are kept in uint8_t and wrap; tests do not run through the combinations around the wrap", "anchors": ["lib/gensio_ax25.c:1402-1435", "lib/gensio_ax25.c:3241-3271"]}
{"id": "C100", "title": "An AX.25 write stores the given data in its packet", "statement": "A write on a connected channel with room in its window stores exactly the first max_write_size bytes of the scatter/gather data as one packet, and touches nothing outside of the packet's buffer.", "quantifier": "for all scatter/gather lists and all reachable channels", "why_tests_cant": "tests write one buffer below the packet size; the length left is an unsigned number that wraps only with several pieces", "anchors": ["lib/gensio_ax25.c:4459-4571"]}
{"id": "C101", "title": "AX.25 raw and UI writes stay within their buffer", "statement": "A raw write or a write of a UI frame builds the header followed by exactly the data counted as written, within the memory allocated for it.", "quantifier": "for all scatter/gather lists, maximum sizes and headers", "why_tests_cant": "the memory is allocated for the truncated length but the whole data is copied; only a write larger than the maximum shows it", "anchors": ["lib/gensio_ax25.c:4380-4457", "lib/gensio_ax25.c:4459-4521"]}
{"id": "C102", "title": "No peer can break an AX.25 channel", "statement": "Whatever frames arrive and in whatever order writes, reads, timeouts, closes and lower-layer results happen, no assertion of the channel fails and no array of it is accessed outside of its bounds.", "quantifier": "for all configurations accepted and all finite sequences of events", "why_tests_cant": "the state space of windows, queues, timers and peer frames is unbounded; tests use a cooperating peer", "anchors": ["lib/gensio_ax25.c:1402-1730", "lib/gensio_ax25.c:2266-2364", "lib/gensio_ax25.c:2747-3702", "lib/gensio_ax25.c:3763-4254", "lib/gensio_ax25.c:4459-4767"]}
{"id": "C103", "title": "XID negotiation gives a window and packet size both ends can use", "statement": "After an XID was received the send window is between 1 and the smaller of the receive window of the peer and the configured send window and less than the modulus, and the packet size is at most what the peer says it can receive.", "quantifier": "for all XID frames and configurations", "why_tests_cant": "the tests connect equal configurations, for which the negotiation changes nothing", "anchors": ["lib/gensio_ax25.c:3054-3197"]}
{"id": "C104", "title": "AX.25 delivers in order and once over a lossy channel", "statement": "For two AX.25 stations connected to each other, whatever frames are lost, what the user of one has read is a prefix of what the user of the other has written, with the same PIDs; and data no longer waiting for an acknowledgement has been read or is stored for reading.", "quantifier": "for all interleavings of writes, reads, sends, losses, timeouts, busy conditions and closes at both stations, of any length, both moduli", "why_tests_cant": "a test runs a few loss patterns with short transfers; sequence numbers wrap and windows interact with timeouts, rejections and busy states in unboundedly many orders", "anchors": ["lib/gensio_ax25.c:2266-2364", "lib/gensio_ax25.c:2747-3051", "lib/gensio_ax25.c:3199-3702", "lib/gensio_ax25.c:4037-4254", "lib/gensio_ax25.c:4459-4571"]}
{"id": "C105", "title": "A clean AX.25 close loses no data", "statement": "If a station closes and the close finishes without an error then all data it wrote before is given to the user of the other station.", "quantifier": "for all interleavings of two stations", "why_tests_cant": "tests read all data before the close, and do not repeat the SABM", "anchors": ["lib/gensio_ax25.c:2881-2935", "lib/gensio_ax25.c:2990-3051", "lib/gensio_ax25.c:1620-1700", "lib/gensio_ax25.c:4685-4767"]}
{"id": "C106", "title": "AX.25 frames survive encoding, addressing and the CRC", "statement": "A frame given to the line by one station is read by the other as the same frame with the same addresses, in both modes and with or without a CRC; no received bytes make the reader leave the packet; with the CRC on a packet changed within 16 consecutive bits is dropped.", "quantifier": "for all addresses, kinds of frame, sequence numbers, P/F and command bits and contents; all received byte strings", "why_tests_cant": "128x128 sequence number pairs times 14 kinds times address forms; tests use two stations that both set the bits the same way, so symmetric encoding errors pass", "anchors": ["lib/gensio_ax25.c:3991-4108", "lib/gensio_ax25.c:4113-4200", "lib/gensio_ax25.c:3729-3979"]}
{"id": "C107", "title": "AX.25 reports stay inside the packet", "statement": "What an unnumbered frame makes the gensio report to the user (PID, data, length) is in the packet received.", "quantifier": "for all received packets", "why_tests_cant": "tests send UI frames with a PID", "anchors": ["lib/gensio_ax25.c:2549-2600", "lib/gensio_ax25.c:3790-3826"]}
{"id": "C108", "title": "A running AX.25 timer has a timer of the OS", "statement": "While a channel is connected or connecting and one of T1, T2, T3 runs, the one timer of the OS they share is set to expire no later, or the handler runs; no order of starts, stops, expiries and callbacks fails an assertion.", "quantifier": "for all interleavings of starts, stops, resets, closes and the timeout handler, and all times", "why_tests_cant": "tests wait for T1 only, and always send something before the idle time is over", "anchors": ["lib/gensio_ax25.c:2107-2232", "lib/gensio_ax25.c:2366-2418"]}
{"id": "C109", "title": "An AX.25 channel is released when its timer is", "statement": "The references a channel holds for its timer are exactly one for the timer being set and one for the handler running, so a closed channel can be freed.", "quantifier": "for all interleavings of starts, stops, resets, closes, opens and the timeout handler", "why_tests_cant": "a lost reference is a leak that shows only in the rare order in which a UA comes twice or a callback opens again", "anchors": ["lib/gensio_ax25.c:2107-2157", "lib/gensio_ax25.c:2366-2418", "lib/gensio_ax25.c:3015-3025", "lib/gensio_ax25.c:1468-1480"]}
{"id": "C110", "title": "The AX.25 round trip time follows the measurements", "statement": "The time of T1 is twice a smoothed average of the measured round trips, and retries increase it exponentially without overflow.", "quantifier": "for all sequences of measured times, received frames and retries", "why_tests_cant": "it takes tens of received frames without sending, or hundreds of fast answers, before the error in T1 is visible", "anchors": ["lib/gensio_ax25.c:2234-2256", "lib/gensio_ax25.c:3357-3380"]}
{"id": "C111", "title": "AX.25 gives up after the configured retries", "statement": "A station that hears nothing closes the connection when T1 has expired once more than the configured number of retries.", "quantifier": "for all states, configurations and sequences of sends and timeouts", "why_tests_cant": "tests use the default number of retries", "anchors": ["lib/gensio_ax25.c:2266-2330"]}
{"id": "C112", "title": "keepopen never faults", "statement": "Whatever the user, the child and the timer do, no assertion of the keepopen filter fails, it never waits for a lock it holds and it never uses freed memory.", "quantifier": "all sequences of lock sections of the user's calls, the child's callbacks and the timer, with callbacks and logs as places where other threads run", "why_tests_cant": "The failing interleavings need a second thread, a call from inside a callback, or a free at a rare moment.", "anchors": ["lib/gensio_keepopen.c:300-377", "lib/gensio_keepopen.c:424-592"]}
{"id": "C113", "title": "keepopen reports each open and close once", "statement": "Each open that is accepted is reported once as a success, each close that is accepted is reported once after the open, and a call that returned an error is never reported.", "quantifier": "all sequences of lock sections, all answers of the child", "why_tests_cant": "A lost report needs a close from inside one particular callback; a report of a refused close needs a child that refuses to close.", "anchors": ["lib/gensio_keepopen.c:268-298", "lib/gensio_keepopen.c:424-544"]}
{"id": "C114", "title": "keepopen opens its child again", "statement": "As long as the user does not close, free or disable the gensio, the child is open or something is in progress that opens it again.", "quantifier": "all sequences of failures of the child, of opens and of closes, of any length", "why_tests_cant": "Tests see a few failures of the child, not all the places where one may come.", "anchors": ["lib/gensio_keepopen.c:300-459"]}
{"id": "C115", "title": "keepopen frees its memory", "statement": "The references are those of the user, the timer and the pending close of the child, and after gensio_free the memory is freed as soon as what is in progress has ended.", "quantifier": "all sequences of lock sections", "why_tests_cant": "Leaks and early frees need a free at a rare moment.", "anchors": ["lib/gensio_keepopen.c:205-266", "lib/gensio_keepopen.c:546-580"]}
{"id": "C116", "title": "keepopen restores the enables of the child", "statement": "Whenever the child is open its read and write callback enables are those the user asked for last.", "quantifier": "all sequences of lock sections and all enables of a child that was opened again", "why_tests_cant": "The user may set an enable at any moment of a retry.", "anchors": ["lib/gensio_keepopen.c:317-331", "lib/gensio_keepopen.c:634-650"]}
{"id": "C117", "title": "A write to keepopen does not fail", "statement": "A write to a keepopen gensio returns success, with the count of the child, or 0 or everything if the child failed.", "quantifier": "all answers of the child, all lists of lengths, with and without a count", "why_tests_cant": "A write without a count to a child that fails is not tested.", "anchors": ["lib/gensio_keepopen.c:603-619"]}
{"id": "C118", "title": "keepopen logs the error of the child", "statement": "The I/O error that is logged is the one the child reported.", "quantifier": "all errors and all answers to the close", "why_tests_cant": "No test looks at the log.", "anchors": ["lib/gensio_keepopen.c:379-405"]}
{"id": "C119", "title": "Accepters are released when, and only when, nothing uses them", "statement": "The memory of an accepter is freed exactly when the user has freed it, the lower half is not shutting down and no callback is running or awaited; no step uses freed memory, a NULL pointer or a negative count.", "quantifier": "all interleavings of user calls, reports of the lower half and callbacks, for both kinds of lower half", "why_tests_cant": "The interleavings of several threads in callbacks, a shutdown and a restart are too many.", "anchors": ["lib/acc.c:166-235", "lib/acc.c:237-374", "lib/acc.c:444-494"]}
{"id": "C120", "title": "A shutdown of an accepter is reported once, and last", "statement": "The callback of each shutdown that was accepted is called once, when the lower half is shut down and no other callback is running or awaited, and none is called for a refused shutdown or after the accepter was freed.", "quantifier": "all interleavings", "why_tests_cant": "Shutdowns that overlap callbacks depend on timing.", "anchors": ["lib/acc.c:200-218", "lib/acc.c:227-235", "lib/acc.c:258-295"]}
{"id": "C121", "title": "Connections are given only while the accepter is open", "statement": "A new connection is given to the user only after a start and not after an accepted shutdown or a free.", "quantifier": "all interleavings", "why_tests_cant": "A shutdown while a connection opens depends on timing.", "anchors": ["lib/acc.c:444-494"]}
{"id": "C122", "title": "An accepter that was started stays open", "statement": "An accepter that was started and not shut down or freed since is open, and so is its lower half.", "quantifier": "all interleavings, any number of restarts", "why_tests_cant": "Restarts after a shutdown during a callback are not tested.", "anchors": ["lib/acc.c:227-256"]}
{"id": "C123", "title": "Enabling and disabling connections is reported once", "statement": "Each accepted call with a callback has its callback called exactly once, one at a time, and an open accepter with none awaited accepts such a call.", "quantifier": "all interleavings, both kinds of lower half", "why_tests_cant": "Overlapping calls are not tested.", "anchors": ["lib/acc.c:297-340", "lib/acc_gensio.c:59-80", "lib/gensio_net.c:1113-1141"]}
{"id": "C124", "title": "The sockets of an accepter are closed and can be asked for", "statement": "After a shutdown the sockets report in any order without a fault, the upper half is told once at the last report; the address and the port of each socket can be asked for at any time, and there is no fault.", "quantifier": "any number of sockets, any order of reports", "why_tests_cant": "Tests ask open accepters only.", "anchors": ["lib/gensio_net.c:727-751", "lib/gensio_net.c:1079-1111", "lib/gensio_net.c:1252-1307", "lib/gensio_net.c:1343-1356"]}
{"id": "C125", "title": "A datagram is given to the user as it came", "statement": "The bytes a user takes from its read callbacks are the bytes of the datagram in order; the auxiliary data fit their array.", "quantifier": "all datagrams, all answers of the user", "why_tests_cant": "Tests take whole datagrams.", "anchors": ["lib/gensio_dgram.c:624-713"]}
{"id": "C126", "title": "Datagram gensios do not fault", "statement": "No assertion fails and no memory is used after it was freed.", "quantifier": "all interleavings of handlers, runners, callbacks and calls, any number of connections and sockets", "why_tests_cant": "Needs opens from close callbacks, write enables while opening, frees in enable callbacks.", "anchors": ["lib/gensio_dgram.c:401-461", "lib/gensio_dgram.c:594-622", "lib/gensio_dgram.c:752-788", "lib/gensio_dgram.c:1367-1487"]}
{"id": "C127", "title": "Datagram gensios are released", "statement": "The reference count is the number of references held; an accepter and its connections are freed when all is done.", "quantifier": "all interleavings", "why_tests_cant": "Leaks are not looked for by tests.", "anchors": ["lib/gensio_dgram.c:239-267", "lib/gensio_dgram.c:346-353", "lib/gensio_dgram.c:509-558", "lib/gensio_dgram.c:1620-1691"]}
{"id": "C128", "title": "Datagrams are read when they may be", "statement": "The read handlers are on exactly when no open connection has reading disabled and no datagram waits.", "quantifier": "all interleavings, all continuations", "why_tests_cant": "Needs a second datagram while the first waits for its connection.", "anchors": ["lib/gensio_dgram.c:381-426", "lib/gensio_dgram.c:715-749", "lib/gensio_dgram.c:1367-1385", "lib/gensio_dgram.c:1480-1487"]}
{"id": "C129", "title": "Each close of a datagram connection is reported once", "statement": "The callback of each accepted close is called exactly once.", "quantifier": "all interleavings", "why_tests_cant": "Needs a close in a deferred read callback.", "anchors": ["lib/gensio_dgram.c:594-622", "lib/gensio_dgram.c:687-749", "lib/gensio_dgram.c:815-892"]}
{"id": "C130", "title": "A datagram goes to the connection with its address", "statement": "A read callback of a connection is made only for a datagram from its remote address.", "quantifier": "all interleavings, any number of sockets", "why_tests_cant": "Needs two sockets and a race between them.", "anchors": ["lib/gensio_dgram.c:624-713", "lib/gensio_dgram.c:1367-1464"]}
{"id": "C131", "title": "A datagram accepter can be started again", "statement": "After a shutdown no connection is told of, until the accepter is started again; then they are.", "quantifier": "all interleavings, all continuations", "why_tests_cant": "Tests start accepters once.", "anchors": ["lib/gensio_dgram.c:1571-1618"]}
{"id": "C132", "title": "The controls of datagram gensios set and get what they say", "statement": "A value that was set is the one that is got; invalid values are rejected.", "quantifier": "all values, all strings, all sequences of sets", "why_tests_cant": "The multicast controls are not tested.", "anchors": ["lib/gensio_dgram.c:1180-1262", "lib/gensio_dgram.c:1717-1730"]}
{"id": "C133", "title": "Connections that wait to write on one socket are all told", "statement": "The write enable count is the number of connections with writing enabled, and each of them is told when the socket can be written.", "quantifier": "all interleavings, any number of connections", "why_tests_cant": "UDP sockets can nearly always be written.", "anchors": ["lib/gensio_dgram.c:428-461", "lib/gensio_dgram.c:933-1037"]}
{"id": "C134", "title": "Each enable of a datagram accepter is reported once", "statement": "The callback of each accepted enable is called exactly once.", "quantifier": "all interleavings", "why_tests_cant": "Overlapping calls are not tested.", "anchors": ["lib/gensio_dgram.c:1444-1456", "lib/gensio_dgram.c:1620-1660"]}
{"id": "C135", "title": "Opens and shutdowns of datagram gensios are reported once", "statement": "The callback of each accepted open and each accepted shutdown is called exactly once.", "quantifier": "all interleavings", "why_tests_cant": "Needs a shutdown and a close in a new connection callback, and a close before an open is done.", "anchors": ["lib/gensio_dgram.c:752-813", "lib/gensio_dgram.c:1465-1478", "lib/gensio_dgram.c:1596-1618"]}
{"id": "C136", "title": "Each RFC 2217 request is answered exactly once", "statement": "The callback of every accepted asynchronous control is called exactly once: with the answer, or when it times out or the gensio is closed.", "quantifier": "all sequences of controls, answers, ticks, closes and opens", "why_tests_cant": "Needs an answer that never comes together with a close at the right moment.", "anchors": ["lib/sergensio_telnet.c:1108-1158", "lib/sergensio_telnet.c:1816-1861", "lib/sergensio_telnet.c:1869-1883"]}
{"id": "C137", "title": "RFC 2217 requests time out after the time asked for", "statement": "A request that is not answered is reported as timed out once its time is over, and not before.", "quantifier": "all sequences of operations and all timeouts", "why_tests_cant": "Needs several requests expiring in the same tick and odd timeouts.", "anchors": ["lib/sergensio_telnet.c:1108-1158", "lib/sergensio_telnet.c:1816-1861"]}
{"id": "C138", "title": "The setting asked for is the one the server is told", "statement": "If a client accepts a serial setting, the server's user is told exactly that setting, whatever way the bytes come in.", "quantifier": "all controls, values and ways to cut the stream", "why_tests_cant": "Values with the escape byte and all ways to cut the stream cannot be enumerated.", "anchors": ["lib/sergensio_telnet.c:1197-1244", "lib/sergensio_telnet.c:1936-2067", "lib/telnet.c:170-267"]}
{"id": "C139", "title": "An answer completes the request it answers", "statement": "The answer of the server completes the oldest request for that control and no other, with the text for the value answered.", "quantifier": "all runs, controls and values", "why_tests_cant": "Needs requests for several controls of one option, and late answers.", "anchors": ["lib/sergensio_telnet.c:1673-1789"]}
{"id": "C140", "title": "Baud rates are carried exactly", "statement": "Every baud rate that can be given reaches the other end unchanged, in both encodings, and no received bytes are misread.", "quantifier": "all rates and all received bytes", "why_tests_cant": "2^32 rates and two encodings.", "anchors": ["lib/sergensio_telnet.c:1066-1094", "lib/sergensio_telnet.c:1160-1195", "lib/sergensio_telnet.c:1673-1789", "lib/sergensio_telnet.c:1936-2067"]}
{"id": "C141", "title": "A telnet synch discards the data before the mark and nothing else", "statement": "After urgent data is announced everything up to and including the DATA MARK is discarded and everything after it is delivered.", "quantifier": "all data and all ways to cut it", "why_tests_cant": "Depends on where the urgent byte is in the stream when it is announced.", "anchors": ["lib/sergensio_telnet.c:315-413", "lib/gensio_net.c:328-372"]}
{"id": "C142", "title": "Window sizes are carried exactly", "statement": "The window size set at one end is the one reported at the other.", "quantifier": "all widths and heights", "why_tests_cant": "Only sizes with a byte of 255 go wrong.", "anchors": ["lib/sergensio_telnet.c:579-621", "lib/sergensio_telnet.c:2087-2107"]}
{"id": "C143", "title": "A failed allocation of the telnet filter frees everything once", "statement": "Whichever allocation fails, what was allocated is freed exactly once.", "quantifier": "all allocations", "why_tests_cant": "Needs an allocation failure at each place.", "anchors": ["lib/sergensio_telnet.c:548-569", "lib/sergensio_telnet.c:739-793", "lib/sergensio_telnet.c:842-1003"]}
{"id": "C144", "title": "Both halves of a telnet gensio agree which end is the client", "statement": "The negotiation and the handling of RFC 2217 use the same mode.", "quantifier": "all defaults and arguments", "why_tests_cant": "Needs a changed default.", "anchors": ["lib/sergensio_telnet.c:842-1003", "lib/sergensio_telnet.c:2167-2244", "lib/sergensio_telnet.c:2246-2311"]}
{"id": "C145", "title": "The telnet filter writes only what is in its buffer and starts afresh when opened", "statement": "No access is outside the write buffer, and a filter that was closed and opened again behaves as a new one.", "quantifier": "all sequences of writes, answers of the lower layer, errors, closes and opens", "why_tests_cant": "Needs partial writes, errors and a reopen in the right order.", "anchors": ["lib/sergensio_telnet.c:170-175", "lib/sergensio_telnet.c:240-313", "lib/sergensio_telnet.c:495-537"]}
{"id": "C146", "title": "A serial value that means nothing is refused", "statement": "A text that is no value of the control is refused, sends nothing and leaves no request.", "quantifier": "all texts", "why_tests_cant": "Infinitely many texts.", "anchors": ["lib/sergensio_telnet.c:1197-1244"]}
{"id": "C147", "title": "Asking for a serial setting does not change it", "statement": "What is sent to ask for a setting differs from what is sent to set one of its values.", "quantifier": "all controls and values", "why_tests_cant": "Needs each control checked against each value.", "anchors": ["lib/sergensio_telnet.c:1197-1244", "lib/sergensio_telnet.c:1588-1653"]}
{"id": "C148", "title": "The signature of the server is reported as it was set", "statement": "The signature the server gives is the one the client's callback gets.", "quantifier": "all signatures", "why_tests_cant": "Depends on length limits in three places.", "anchors": ["lib/sergensio_telnet.c:1372-1401", "lib/sergensio_telnet.c:1673-1789", "lib/telnet.c:39-83"]}
{"id": "C149", "title": "The echo gensio gives back what was written", "statement": "What the user has taken and what is buffered are the configured data followed by the bytes accepted from him, in order; nothing of an earlier open is seen after a reopen.", "quantifier": "all runs, all threads' calls between callbacks", "why_tests_cant": "Needs writes at every point between callbacks, partial reads and reopens.", "anchors": ["lib/gensio_echo.c:109-136", "lib/gensio_echo.c:138-214"]}
{"id": "C150", "title": "The echo gensio uses no freed memory and is silent after free", "statement": "No assertion fails, no freed memory is used, the operation runs once at a time, and no callback is called after free.", "quantifier": "all runs", "why_tests_cant": "Depends on where in the operation the free comes.", "anchors": ["lib/gensio_echo.c:96-107", "lib/gensio_echo.c:138-225", "lib/gensio_echo.c:298-306"]}
{"id": "C151", "title": "Opens and closes of an echo gensio are reported once with the right result", "statement": "Each accepted open and close is reported exactly once, in order, and an open with the error that it has.", "quantifier": "all runs", "why_tests_cant": "Needs a close during an open and a reopen in the close callback.", "anchors": ["lib/gensio_echo.c:138-214", "lib/gensio_echo.c:253-296"]}
{"id": "C152", "title": "An echo gensio wakes up whoever enabled a callback", "statement": "If nothing is scheduled or running, there is no data for a user who enabled reads and no room for one who enabled writes.", "quantifier": "all runs", "why_tests_cant": "A lost wake-up shows only for one order of calls and callbacks.", "anchors": ["lib/gensio_echo.c:138-251"]}
{"id": "C153", "title": "A write to a file gensio counts what was written", "statement": "The count is the number of bytes of the call that went to the file, or were dropped if there is no output file.", "quantifier": "all scatter lists, all partial writes", "why_tests_cant": "Tests write one buffer at a time.", "anchors": ["lib/gensio_file.c:203-220", "lib/gensio_file.c:308-333"]}
{"id": "C154", "title": "A file gensio delivers the file", "statement": "What the user took, what is held and what is left are the file, in order; the end is reported after all of it; errors reported are those of the file.", "quantifier": "all runs, all read sizes, all counts taken, any number of threads", "why_tests_cant": "Overlapping operations and reopens are not tested.", "anchors": ["lib/gensio_file.c:221-237", "lib/gensio_file.c:335-421"]}
{"id": "C155", "title": "A file gensio closes the files it opens", "statement": "No descriptor is left without a reference, and a closed gensio has none.", "quantifier": "all runs with failing opens", "why_tests_cant": "Leaks are not seen by tests that end.", "anchors": ["lib/gensio_file.c:462-546", "lib/gensio_file.c:256-274"]}
{"id": "C156", "title": "A file gensio uses no freed memory and is silent after free", "statement": "No assertion fails, no freed memory is used, the memory is freed when the user has freed the gensio and no operation is left; no callback is called after free.", "quantifier": "all runs, any number of threads", "why_tests_cant": "Depends on a free between the scheduling and the running of an operation.", "anchors": ["lib/gensio_file.c:288-306", "lib/gensio_file.c:335-432", "lib/gensio_file.c:536-546"]}
{"id": "C157", "title": "What is left in the buffer of a file gensio is moved correctly", "statement": "After part was taken the rest is at the start of the buffer and the copy is between parts that do not overlap.", "quantifier": "all counts taken", "why_tests_cant": "memcpy with an overlap often works.", "anchors": ["lib/gensio_file.c:388-396"]}
{"id": "C158", "title": "Opens and closes of a file gensio are reported once, not during another callback", "statement": "Each accepted open and close is reported exactly once, in order; a callback starts when no other is running.", "quantifier": "all runs, any number of threads", "why_tests_cant": "Needs two threads in the operation at once.", "anchors": ["lib/gensio_file.c:335-421", "lib/gensio_file.c:462-534"]}
{"id": "C159", "title": "A file gensio wakes up whoever enabled a callback", "statement": "If nothing is scheduled or running in an open gensio, reads are off or there is no input file, and writes are off unless a callback gave an error, which ends the operation.", "quantifier": "all runs, any number of threads", "why_tests_cant": "A lost wake-up shows only for one order of calls and callbacks.", "anchors": ["lib/gensio_file.c:335-460"]}
{"id": "C160", "title": "Two socket addresses compare equal exactly when they name the same host and port", "statement": "For any two socket addresses of the lengths the system gives them, the comparison without a mask is true exactly when both are of a known family and name the same host (an IPv4 host may also be given as ::ffff:a.b.c.d) and, when ports are compared, the same port; on known families it is an equivalence.", "quantifier": "all socket addresses of all families, ports compared or not", "why_tests_cant": "The pairs of addresses cannot be enumerated; tests compare a handful of loopback addresses.", "anchors": ["lib/net_addrinfo.c:400-542"]}
{"id": "C161", "title": "An address is in a subnet exactly when the bits under the mask agree", "statement": "An address is found present in a list with subnet masks exactly when, for some entry, the first m bits of the two addresses agree, for IPv4 and IPv6 entries and addresses in all combinations, and for all masks from 0 to the width of the address.", "quantifier": "all addresses, entries and masks", "why_tests_cant": "There are 2^128 addresses and 129 masks; the byte loop and the conversion between families have many boundary values.", "anchors": ["lib/net_addrinfo.c:400-542", "lib/net_addrinfo.c:1394-1411"]}
{"id": "C162", "title": "Removing duplicates keeps the first of equal addresses, in order, and all others", "statement": "The list of an address read from a string, or made by concatenation, holds, in order, exactly the addresses given that no earlier one equals; what was allowed by the given list is allowed by the result.", "quantifier": "all lists of lists of addresses, all patterns of duplicates, from getaddrinfo or not", "why_tests_cant": "The restarts, conversions of lists and deletions at the head, inside and of whole items depend on where duplicates are; tests have none or one.", "anchors": ["lib/net_addrinfo.c:892-966", "lib/net_addrinfo.c:1351-1392"]}
{"id": "C163", "title": "Copies and concatenations of addresses share memory safely", "statement": "In any sequence of making, copying, concatenating and freeing addresses, also when memory runs out, no freed memory is used, nothing is lost, and an operation on one address changes no other address.", "quantifier": "all sequences of operations, all sharing patterns, all allocation failures", "why_tests_cant": "Faults show only in particular sharing patterns with duplicates, or with an allocation that fails, and even then only under a memory checker.", "anchors": ["lib/net_addrinfo.c:770-966", "lib/net_addrinfo.c:1325-1421"]}
{"id": "C164", "title": "Iterating gives every address of an address once, in order", "statement": "The iterator gives the addresses of all lists in order and then NULL; next moves through the same addresses and stays at the last; comparing all addresses is true exactly for lists equal one by one, and no comparison uses NULL.", "quantifier": "all lists of lists of addresses, any number of calls", "why_tests_cant": "The boundary between lists and the empty lists are rarely met.", "anchors": ["lib/net_addrinfo.c:78-140", "lib/net_addrinfo.c:544-578", "lib/net_addrinfo.c:1423-1445"]}
{"id": "C165", "title": "A subnet mask in a string is taken as written or rejected", "statement": "A mask given after a slash is stored as the number written when it is at most the width of the address, and the string is rejected otherwise.", "quantifier": "all numbers, families and kinds of addresses", "why_tests_cant": "Wrap-around occurs at 2^32 and, in the bit field, at 256.", "anchors": ["lib/net_addrinfo.c:1128-1171", "lib/net_addrinfo.c:48-57"]}
{"id": "C166", "title": "The data and port an address is made of are the ones it gives back", "statement": "An address made from bytes and a port gives back these bytes and this port; a short buffer gets the beginning and the full length is reported; setting a port changes only the port.", "quantifier": "all addresses, ports and buffer sizes", "why_tests_cant": "Only a few addresses and ports are tried by tests.", "anchors": ["lib/net_addrinfo.c:224-397", "lib/net_addr.c:104-111"]}
{"id": "C167", "title": "The connecting accepter fails no assertion and uses no freed memory", "statement": "Whatever the order of calls of the user, reports of the child gensios, timeouts and deferred calls, the accepter fails no assertion, uses neither itself nor a connection after it is freed, and takes no lock it holds.", "quantifier": "all interleavings of startup, shutdown, enable, disable, free, closes and frees of connections, reports and timeouts; with and without retry time", "why_tests_cant": "The wrong orders need a call between two steps of another thread.", "anchors": ["lib/gensio_conacc.c:365-464", "lib/gensio_conacc.c:466-596", "lib/gensio_conacc.c:643-911", "lib/gensio_conacc.c:913-1087"]}
{"id": "C168", "title": "An enabled connecting accepter keeps trying", "statement": "With a retry time, an accepter that is started and enabled is opening a connection, has one, waits for its timer, or is about to start again; one that waits opens a connection when its timer goes off.", "quantifier": "all runs", "why_tests_cant": "A stuck accepter looks like one with nothing to do.", "anchors": ["lib/gensio_conacc.c:643-652", "lib/gensio_conacc.c:741-859", "lib/gensio_conacc.c:990-1087"]}
{"id": "C169", "title": "Shutdowns and enables of the connecting accepter are reported once", "statement": "Every shutdown, enable and disable that was accepted is reported exactly once, and a shutdown that is under way can always be brought to its report.", "quantifier": "all runs", "why_tests_cant": "Lost and repeated reports depend on which of several deferred paths is taken.", "anchors": ["lib/gensio_conacc.c:379-464", "lib/gensio_conacc.c:824-911", "lib/gensio_conacc.c:913-1087"]}
{"id": "C170", "title": "The connecting accepter has one connection at a time", "statement": "At most one child gensio is opened, open or being closed at any time, and the accepter knows of it.", "quantifier": "all runs and any number of connections", "why_tests_cant": "Two connections at once occur only after particular failures.", "anchors": ["lib/gensio_conacc.c:466-496", "lib/gensio_conacc.c:741-790"]}
{"id": "C171", "title": "The connecting accepter gives back its memory", "statement": "The accepter is freed exactly when nothing refers to it; a connection is known to the accepter, held by the user, or freed; what the user holds is not freed.", "quantifier": "all runs and any number of connections", "why_tests_cant": "A leak of one reference shows only when everything else is done.", "anchors": ["lib/gensio_conacc.c:295-376"]}
{"id": "C172", "title": "The store of default values touches only its own memory", "statement": "Adding, setting, asking for, deleting and resetting defaults never writes or reads outside a block, frees a block twice, or frees a constant, whichever allocation fails.", "quantifier": "all sequences of calls, all tables of built-in defaults, every failing allocation", "why_tests_cant": "A write of one byte behind a block, or a double free after a failed allocation, is rarely visible in a test.", "anchors": ["lib/gensio.c:2790-2853", "lib/gensio.c:2855-2994", "lib/gensio.c:3008-3095", "lib/gensio.c:3097-3168"]}
{"id": "C173", "title": "The default that is given is the one that was set", "statement": "Every call is answered as by a map from names to a built-in value, a value for all and a value for each class: a value set is the one given, the value of a class comes before the value for all, and that before the built-in one; other names and classes are not changed.", "quantifier": "all sequences of calls", "why_tests_cant": "Tests set and ask for a handful of names, not interleavings of classes, deletions and resets.", "anchors": ["lib/gensio.c:2855-2994", "lib/gensio.c:3008-3095"]}
{"id": "C174", "title": "A reset of the defaults brings back the values of the start", "statement": "After gensio_reset_defaults every built-in default has, for every class, the value it had when the program started.", "quantifier": "all sequences of calls before the reset, all names and classes", "why_tests_cant": "A test that resets looks at the defaults it changed, not at those that the library set itself.", "anchors": ["lib/gensio.c:2602-2616", "lib/gensio.c:2695-2741"]}
{"id": "C175", "title": "Defaults are inside their range", "statement": "A number that is accepted lies between the minimum and the maximum of the default, a bool is 0 or 1, an enum is one of the values of its table, and the value in the table is itself accepted.", "quantifier": "all values, texts and ranges", "why_tests_cant": "The ranges are checked on one of two paths only.", "anchors": ["lib/gensio.c:2872-2948", "lib/gensio.c:2491-2592"]}
{"id": "C176", "title": "The store of default values gives back its memory", "statement": "Every block belongs to an entry, a class or the user; after the added defaults are deleted and the memory is cleaned up, none is left.", "quantifier": "all sequences of calls, every failing allocation", "why_tests_cant": "A leak of a string per deleted default shows only under a leak checker that covers that call.", "anchors": ["lib/gensio.c:2695-2741", "lib/gensio.c:3097-3168", "lib/gensio.c:2629-2692"]}
{"id": "C177", "title": "A call for a default that fails changes nothing", "statement": "If a call on the defaults returns an error, all later calls are answered as if it had not been made.", "quantifier": "all sequences of calls, every error, every failing allocation", "why_tests_cant": "Failures in the middle of a call need an allocation that fails at the right place.", "anchors": ["lib/gensio.c:2790-2994"]}
{"id": "C178", "title": "Default addresses and counts are used", "statement": "If a default local address is set, gensios made without a local address use it; a count that is asked for is never negative.", "quantifier": "all values of the default", "why_tests_cant": "No test sets a default local address.", "anchors": ["lib/gensio.c:3170-3207", "lib/gensio_net.c:466-472", "lib/gensio_dgram.c:2115-2121", "lib/gensio_sctp.c:442-448"]}
{"id": "C179", "title": "TLS output reaches the lower layer in order", "statement": "The bytes the lower layer takes from the TLS filter are those OpenSSL gave, in order and without loss; an error of the lower layer is reported; no buffer is left.", "quantifier": "all sequences of calls and all answers of OpenSSL, the BIO and the lower layer", "why_tests_cant": "Needs a failing lower layer just when OpenSSL wants to write.", "anchors": ["lib/gensio_ssl.c:559-631"]}
{"id": "C180", "title": "TLS takes the data of the user once", "statement": "The count reported for a write is the number of bytes taken, they are given to OpenSSL in order, and a write that OpenSSL wants repeated is repeated with the same bytes.", "quantifier": "all pieces, sizes, sequences of calls and answers", "why_tests_cant": "Repetitions depend on the timing of the peer and the lower layer.", "anchors": ["lib/gensio_ssl.c:510-599"]}
{"id": "C181", "title": "TLS gives the user all data that was read", "statement": "What the user takes is what SSL_read gave, in order; offers are never empty and contain exactly what is left; after the user took everything it is offered the next data.", "quantifier": "all sequences of calls, with any calls while the read handler runs", "why_tests_cant": "Partial acceptance at every point of a stream is not tested.", "anchors": ["lib/gensio_ssl.c:633-729"]}
{"id": "C182", "title": "TLS errors have a cause and stay", "statement": "A write fails only if the lower layer, OpenSSL or the BIO failed, with that error; an error stays until the filter is cleaned up and is reported to every later write.", "quantifier": "all sequences of calls and answers", "why_tests_cant": "SSL_peek succeeding after SSL_ERROR_WANT_WRITE needs a renegotiation.", "anchors": ["lib/gensio_ssl.c:477-631"]}
{"id": "C183", "title": "TLS leaves nothing behind", "statement": "After a write without error either the lower layer is busy or OpenSSL has nothing to send; whatever waits is reported as pending; if the filter says that it can write, a write takes something.", "quantifier": "all sequences of calls and answers", "why_tests_cant": "A lost wake-up shows as a rare hang.", "anchors": ["lib/gensio_ssl.c:229-264", "lib/gensio_ssl.c:559-631"]}
{"id": "C184", "title": "The TLS handshake has a time limit", "statement": "Every wait of an open ends when the timeout has passed since the start of that open.", "quantifier": "all times and all numbers of calls", "why_tests_cant": "No test opens a TLS gensio twice with a slow peer.", "anchors": ["lib/gensio_ssl.c:330-413", "lib/gensio_ssl.c:764-791"]}
{"id": "C185", "title": "Authentication means a verified certificate", "statement": "A gensio is marked as authenticated only if the certificate of the peer was verified against the configured store and the user did not refuse it.", "quantifier": "all results of verification, all answers of the user, both sides", "why_tests_cant": "The tests use one valid and few invalid certificates.", "anchors": ["lib/gensio_ssl.c:273-328", "lib/gensio_ssl.c:1096-1158", "lib/gensio_ssl.c:1410-1424"]}
{"id": "C186", "title": "TLS memory of certificates and names", "statement": "Every reference to a certificate and every name is given back exactly once, and never used afterwards.", "quantifier": "all numbers of opens, all sequences of calls", "why_tests_cant": "A reference that is given back twice is often not noticed.", "anchors": ["lib/gensio_ssl.c:764-791", "lib/gensio_ssl.c:990-1017", "lib/gensio_ssl.c:1104"]}
{"id": "C187", "title": "An open over two children is reported exactly once, and not half done", "statement": "A lower layer that joins two child gensios (AX.25 and the sound modem use it) reports an accepted open exactly once: with success only when both children are open, and with an error only when both children are closed again.", "quantifier": "For every order of the reports of the two children, every combination of their errors, and one open and one close at any point.", "why_tests_cant": "Tests open both children successfully; orders in which one fails and the other opens later are not produced.", "anchors": ["lib/ll_2gensio.c:132-212"]}
{"id": "C188", "title": "A close over two children is reported exactly once, after both are closed", "statement": "A close that the two-child lower layer accepts is reported exactly once, and only when both children are closed; also when it was asked for while the open was going on.", "quantifier": "For every order of the reports of the children and every moment of the close.", "why_tests_cant": "A close while the open is going on needs a race that tests do not set up.", "anchors": ["lib/ll_2gensio.c:92-130", "lib/ll_2gensio.c:214-253"]}
{"id": "C189", "title": "A two-child lower layer can be opened again", "statement": "After a close, or after a failed open, the two-child lower layer can be opened again, and the result of that open depends only on the children then.", "quantifier": "For every sequence of opens, closes and reports of the children.", "why_tests_cant": "Tests open a gensio once and free it.", "anchors": ["lib/ll_2gensio.c:182-253"]}
{"id": "C190", "title": "The throughput filter counts right", "statement": "The counts in the reports of the perf filter and those kept since the last report add up to exactly the bytes the lower layer took and delivered; the lower layer is never offered more than what is left or than the buffer holds; there is at most one final report and it gives the exact totals.", "quantifier": "For all configurations, all sequences of writes, reads, ticks, errors and reopens, all partial writes and all interleavings of a write handler and a read handler.", "why_tests_cant": "Tests look at the text of one run, not at the sums under partial writes and races.", "anchors": ["lib/gensio_perf.c:153-208", "lib/gensio_perf.c:216-337"]}
{"id": "C191", "title": "The reports of the throughput filter arrive whole and in order", "statement": "The upper layer gets the text of each report completely, once and in order, however little it takes at a time; the print buffer is never overwritten while it is being read and never read behind its end.", "quantifier": "For all sequences of reads of any size, ticks, errors and writes, with the read handler running in parallel.", "why_tests_cant": "Overwriting needs a tick in the middle of a read handler.", "anchors": ["lib/gensio_perf.c:268-337"]}
{"id": "C192", "title": "The throughput test ends with its total", "statement": "When all is written and received, the final report is made and read and then the end of the connection is reported, not before; the final report is made on an error too, and nothing follows it.", "quantifier": "For all runs and all moments of an error or tick.", "why_tests_cant": "An error while a periodic report waits, or a tick between the total and the end, is a matter of chance.", "anchors": ["lib/gensio_perf.c:68-92", "lib/gensio_perf.c:153-266", "lib/gensio_perf.c:339-347"]}
{"id": "C193", "title": "The throughput filter measures and prints times right", "statement": "The times in the final report are the differences between the end of the writes or reads and the start, correctly normalised, and printed to the nearest millisecond.", "quantifier": "For all proper times.", "why_tests_cant": "The wrong rounding shows only in the last half millisecond of a second.", "anchors": ["lib/gensio_perf.c:135-151", "lib/gensio_perf.c:163-203"]}
{"id": "C194", "title": "The throughput filter writes as fast as the lower layer takes", "statement": "The filter asks for a call exactly when a call would do something, and as long as it has data and the lower layer takes it, it is called again without waiting for a timer.", "quantifier": "For all amounts, buffer sizes and lower layers.", "why_tests_cant": "A stalled test looks like a slow connection.", "anchors": ["lib/gensio_perf.c:76-92", "lib/gensio_base.c:574-659", "lib/gensio_base.c:1778-1843"]}
{"id": "C195", "title": "The hex dump shows all data and nothing else", "statement": "For data given in any pieces the dump writes only inside its 16 bytes, its text is the lines of 16 bytes of the whole data with position, hex and printable text, and the data can be read back from the text.", "quantifier": "For all data, all ways to cut it into pieces, all indents and old contents of the structure.", "why_tests_cant": "The ways to cut data into pieces around a line of 16 are too many to try, and a byte lost at one of them is not seen.", "anchors": ["lib/gensio.c:3707-3758", "include/gensio/gensio.h:706-732"]}
{"id": "C196", "title": "The trace holds exactly what crossed the filter", "statement": "While the filter is open the file gets, for each call in order, the data offered (b4dir) and the data taken or the error (dir), with the right time and nothing else; a raw trace is exactly the bytes taken; without an open file nothing is written.", "quantifier": "For all settings and all sequences of writes and reads, pieces, short counts and errors.", "why_tests_cant": "Short counts, errors and cut data combine with each setting; tests look at few traces.", "anchors": ["lib/gensio_trace.c:109-228", "man/gensio.5:1861-1895"]}
{"id": "C197", "title": "The trace filter does not change the stream", "statement": "A write or read that is not blocked is passed as it came and its answer too, whatever is traced; one that is blocked never passes, is not traced, and is answered with exactly the bytes given.", "quantifier": "For all settings, data and answers of the handler.", "why_tests_cant": "Needs settings nobody combines, such as tracing before a handler that is blocked.", "anchors": ["lib/gensio_trace.c:156-228", "man/gensio.5:1861-1895"]}
{"id": "C198", "title": "Trace files are opened and closed once and kept", "statement": "Each file that is opened is closed exactly once at the end of its session, standard output and error never; old text is kept unless delold is set, then the file holds the last session; an open that fails is reported.", "quantifier": "For all histories over any number of sessions.", "why_tests_cant": "Leaked handles and lost text appear only over several sessions.", "anchors": ["lib/gensio_trace.c:86-101", "lib/gensio_trace.c:236-244", "lib/gensio_trace.c:319-362"]}
{"id": "C199", "title": "The lock of the script filter is given back once", "statement": "Each call and callback that takes the lock of the filter gives it back exactly once, on all paths.", "quantifier": "For all states, events and errors, also when a write of the base and the end of the script meet.", "why_tests_cant": "The error paths of the filter run in no test, and a lock given back twice is often not noticed.", "anchors": ["lib/gensio_script.c:161-184", "lib/gensio_script.c:342-398"]}
{"id": "C200", "title": "No byte between script and peer is lost or moved", "statement": "In each session all bytes taken from the script are given to the lower layer and all taken from the lower layer to the script or the user, in order.", "quantifier": "For all sequences of reads, writes, short counts and ends of the script.", "why_tests_cant": "Needs long reads and a script that ends while something is buffered.", "anchors": ["lib/gensio_script.c:203-276", "lib/gensio_script.c:342-441"]}
{"id": "C201", "title": "The end of the script is the result of the open", "statement": "In each session the end of the script is reported once; the open succeeds only if the script was no program or ended with code 0, and otherwise fails with the right error.", "quantifier": "For all histories over any number of sessions, errors and exit codes.", "why_tests_cant": "Errors of the script's gensio and its close can come in many orders.", "anchors": ["lib/gensio_script.c:115-201"]}
{"id": "C202", "title": "The script's gensio is freed once and not used after", "statement": "The filter never uses a gensio that is gone nor a NULL pointer, and frees each gensio of a script exactly once.", "quantifier": "For all histories over any number of sessions.", "why_tests_cant": "The use after free needs the end of the script while the lower layer takes its output.", "anchors": ["lib/gensio_script.c:123-159", "lib/gensio_script.c:316-398", "lib/gensio_script.c:457-466"]}
{"id": "C203", "title": "Stdio delivers the output of the program in order and once", "statement": "The bytes taken by the reader of a stdio gensio, followed by those that wait in its buffer, are exactly the bytes the system gave; each data callback offers exactly the bytes not yet taken, at least one, and only while reading is on; no descriptor that is gone is used.", "quantifier": "all sequences of opens, closes, frees, switches, writes, handler calls and callback returns, with callbacks running while other steps happen", "why_tests_cant": "tests take all data in each callback and never switch reading from other threads while a callback runs", "anchors": ["lib/gensio_stdio.c:232-295", "lib/gensio_stdio.c:406-465", "lib/gensio_stdio.c:515-582"]}
{"id": "C204", "title": "Stdio reports errors after the data, and always", "statement": "An error is given to the reader only after all data, once per switch; and whenever the channel has an error and reading is on, the reader is told.", "quantifier": "all sequences of events; in particular errors of writes while the reader waits", "why_tests_cant": "a write to a program that has closed its input but still prints is not in the tests", "anchors": ["lib/gensio_stdio.c:210-229", "lib/gensio_stdio.c:232-295", "lib/gensio_stdio.c:564-582"]}
{"id": "C205", "title": "A stdio session gives only its own data", "statement": "After an open, what is delivered was read since that open, and data of an earlier session neither appears nor blocks reading.", "quantifier": "all histories before the open", "why_tests_cant": "tests do not reopen a stdio gensio with unread data", "anchors": ["lib/gensio_stdio.c:684-756"]}
{"id": "C206", "title": "Stdio is quiet after a close, reports it once and can be used again", "statement": "After a successful close or a free no read callback starts; close_done is called exactly once per accepted close that has one; when the close is over the gensio can be opened or freed.", "quantifier": "all sequences of events, closes with and without close_done", "why_tests_cant": "needs a close from another thread while a callback runs, or a close without a callback followed by a free", "anchors": ["lib/gensio_stdio.c:299-377", "lib/gensio_stdio.c:394-404", "lib/gensio_stdio.c:817-872", "man/gensio_close.3:17-60"]}
{"id": "C207", "title": "Stdio keeps reading", "statement": "While a channel is open, reading is on and there is no error, a callback runs, a deferred operation is due or the read handler is on with an empty buffer.", "quantifier": "all sequences of switches of reading and runs of the deferred operation", "why_tests_cant": "depends on the order of a quick off and on and the runner", "anchors": ["lib/gensio_stdio.c:422-465", "lib/gensio_stdio.c:515-540"]}
{"id": "C208", "title": "Stdio gensio memory and references", "statement": "The count of references of the stdio gensio is the number of gensios, handlers, deferred operations, timers and callbacks there are; its memory is given back when none is left; no assertion fails and neither NULL nor a freed gensio is used.", "quantifier": "all orders of opens, closes, frees and allocations of both channels, deferred operations, ends of handlers, timeouts and callbacks", "why_tests_cant": "needs orders of threads and of the two channels that tests do not make", "anchors": ["lib/gensio_stdio.c:79-130", "lib/gensio_stdio.c:197-207", "lib/gensio_stdio.c:299-388", "lib/gensio_stdio.c:684-756", "lib/gensio_stdio.c:851-872"]}
{"id": "C209", "title": "Close of a stdio channel is reported", "statement": "close_done is called once for a close of a channel, whatever happens to the other channel and in whatever session.", "quantifier": "all orders of closes of both channels, sessions, retries of the wait for the program", "why_tests_cant": "needs several sessions of one gensio with a stderr channel", "anchors": ["lib/gensio_stdio.c:299-388", "lib/gensio_stdio.c:478-513", "man/gensio.5:985-987"]}
{"id": "C210", "title": "Exit code of the program", "statement": "After the close the exit code is the status the system gave for the program of this session.", "quantifier": "all orders, all numbers of retries, all sessions", "why_tests_cant": "needs slow programs and several sessions", "anchors": ["lib/gensio_stdio.c:299-388", "lib/gensio_stdio.c:947-974"]}
{"id": "C211", "title": "The dummy accepter reports each shutdown and enable once and is freed exactly when nothing holds it", "statement": "For every run of calls, deferred operations and returns of callbacks of the dummy accepter: the report of an accepted enable comes exactly once or is due; the report of an accepted shutdown comes exactly once or is due, and a refused call changes nothing; for a user that frees once and calls nothing after that, no assertion fails, the memory is given back exactly when the user has freed it, the deferred operation is not due and no callback runs, and what is due has a run or a callback before it that will report it.", "quantifier": "All runs of any length, all interleavings of calls with callbacks that have not returned, all callbacks.", "why_tests_cant": "Tests call one accepter from one thread and never start it up while a shutdown is under way; lost reports need that order.", "anchors": ["lib/gensio_dummy.c:74-194"]}
{"id": "C212", "title": "The stdio accepter is freed exactly when nothing holds it", "statement": "For every run of the stdio accepter and its gensio with a user that calls neither after freeing it: no assertion on the reference count fails; the memory is given back exactly when the user has freed the accepter, no runner is due or in a callback, no handler is set, and no reference for the gensio is left; and once the user has freed both and everything has run, it is given back.", "quantifier": "All runs of any length, all failures of the operating system functions at startup, all interleavings of calls, runners, cleared handlers and callbacks.", "why_tests_cant": "A leak of the accepter is seen by no test that ends with the process, and the tests free a connection only after closing it and start up once.", "anchors": ["lib/gensio_stdio.c:1286-1481", "lib/gensio_stdio.c:817-872"]}
{"id": "C213", "title": "The stdio accepter reports each shutdown, enable, connection and close once", "statement": "For every run of the stdio accepter: each accepted enable is reported exactly once or its report is due; each successful startup gives exactly one new connection with a gensio, or it is due, and none after the accepter is freed; each accepted shutdown is reported exactly once or is due; each accepted close of the gensio is reported at most once, and a refused startup does not keep it from being reported.", "quantifier": "All runs of any length, all interleavings of calls with the runner, including between its unlock and its look at the callback.", "why_tests_cant": "The window between the unlock and the call is a few instructions, and the tests never start the accepter up again.", "anchors": ["lib/gensio_stdio.c:1286-1347", "lib/gensio_stdio.c:1349-1404"]}
{"id": "C214", "title": "The serial device reports modem lines when they change and answers every mask", "statement": "For every run of the modem state handling of the serial device gensio: each look at the lines calls every callback that waits exactly once and in order and then sends the state if it is the first since the mask was set or a line in the mask has changed, with a bit for each line that changed; the callback of every mask that was set is called exactly once or is left to call; and while the device is open and the mask is not 0, a look is under way or the timer runs for one.", "quantifier": "All states of the four lines, all masks, any number of callbacks, and all interleavings of masks, opens, closes, timers and looks.", "why_tests_cant": "A line that is on and not in the mask sends an event every second, which a test that counts only the first event does not see; the other failures need a timer that fires in another thread in a window of a few instructions.", "anchors": ["lib/sergensio_serialdev.c:694-754", "lib/sergensio_serialdev.c:756-793"]}
{"id": "C215", "title": "Waiting for an asynchronous control puts the answer into the buffer and releases the waiter", "statement": "An asynchronous control is given to the gensio at its depth, or from the top down to the first that has such a control, and to no other.  A call that waits for it writes only into the buffer of the caller: as much of the answer as fits, with the length of the whole answer returned; an error or a set leaves the buffer alone.  Every waiter is released, and nothing of the call is used after it has returned.", "quantifier": "All stacks of gensios and depths, all lengths of buffers and answers, all runs of calls, answers, wakes and interruptions.", "why_tests_cant": "The tests use buffers that are larger than any answer, controls that exist, and waits that are not interrupted, so that neither the overflow nor the lost waiters nor the late answer is seen.", "anchors": ["lib/gensio.c:604-646", "lib/gensio.c:648-733", "man/gensio_control.3:142-154"]}
{"id": "C216", "title": "Requests to the serial device are answered once and in order, and closing waits for them", "statement": "For every run of requests, closes, reopens and frees of the serial device gensio: the requests answered are exactly those accepted, in order, up to those still queued; the runner is on its way while any is queued; the device is there whenever a request is answered; when the close is over all have been answered; and no memory that was given back is used.", "quantifier": "All runs of any length, any number of requests, all interleavings of requests, callbacks, closes and frees.", "why_tests_cant": "Freeing the gensio while another thread, or a nested wait, is in the callback of a request is a matter of timing that the tests do not produce.", "anchors": ["lib/sergensio_serialdev.c:241-405", "lib/sergensio_serialdev.c:935-1011", "lib/sergensio_serialdev.c:1186-1208"]}
{"id": "C217", "title": "Closing the serial device drains its output within the set times", "statement": "While the serial device closes, with a drain time of d the output is looked at at most d times before the close is over, whatever it finds; with a wait of c for a character, the close is over after c looks at which the output has not become less; an empty output ends the close at once; without a drain time the close goes on as long as the output becomes less from look to look; with both off a stuck device keeps the close for ever.", "quantifier": "All drain times and waits, all sequences of output counts of any length.", "why_tests_cant": "The tests close devices whose output drains at once.", "anchors": ["lib/sergensio_serialdev.c:969-1000", "man/gensio.5:810-822"]}
{"id": "C218", "title": "The options of the serial device are read as the manual says", "statement": "A speed option is accepted exactly if it is a decimal number of 10 or more, followed by nothing, a parity letter, a parity letter and data bits 5 to 8, or these and stop bits 1 or 2; the speed and the settings given are then set and the others stay; every printed number with such a rest sets exactly that speed; and an option that is accepted as something else leaves the speed as it was.", "quantifier": "All option strings of any length, all speeds, all settings before.", "why_tests_cant": "The tests use a handful of usual speeds; a number that does not fit into an int, or text that is a speed only at its start, is never given.", "anchors": ["lib/sergensio_serialdev.c:24-46", "lib/sergensio_serialdev.c:174-225", "lib/sergensio_serialdev.c:1516-1593", "man/gensio.5:831-848"]}
{"id": "C219", "title": "The memory checker finds what it is there for and nothing else", "statement": "A block from gensio_i_zalloc is zero. Its free reports a second free if it was freed, else a write into the 32 bytes before it that was not put back, else one into the 32 bytes behind it, and else nothing. A program that writes only into its blocks and frees each once gets no message, and at the end exactly the blocks never freed are reported as lost. With the check of all blocks, a free finds every other block, freed or not, that was written before or behind.", "quantifier": "All sequences of allocations, writes, frees and cleanups, all sizes, all bytes.", "why_tests_cant": "The tests run under the checker and trust it: a message it fails to give looks like a test that passed.", "anchors": ["lib/os_osops.c:3914-4150"]}
{"id": "C220", "title": "Exactly the chosen call is made to fail, and the exit code tells whether it was", "statement": "Without GENSIO_ERRTRIG_TEST no call of do_errtrig is true and exit codes stay as they are. With it set to N exactly the Nth call is true, and errtrig_exit turns the codes 0 and 1 into 0, 1, 2 or 3 as its comment says: whether there was an error, and whether a call was made to fail.", "quantifier": "All numbers of calls, all N, all exit codes.", "why_tests_cant": "The test driver counts N up until the exit code says that no call failed; an exit code that says the wrong thing ends or misleads the very loop that would find it.", "anchors": ["lib/errtrig.c:16-94"]}
