# Formal model of nathanaelle/syslog5424 (Lean 4)

(Generated by `tools/gen_design.py` from `tools/design_head.md`, the notes and the axioms.)

## Layout

* `lean/Verif/Go.lean` – Go run-time notions: `Out` (return / panic / hang), slices with visible bytes and spare
  capacity, `strconv`.
* `lean/Verif/Model/*.lean` – the model, one file per group of Go files. Every definition cites the Go file and lines it
  models; simplifications are in the same comment or in the head of the file.
* `lean/Verif/Spec/*.lean` – small specifications that do not mention the functions of the model (RFC 5424 grammar, white
  space, decimal numbers, the Gregorian calendar, frames, what arrives on a connection, ...). For the transition systems
  they are written on the events of a history (which messages were sent, which reads arrived, which errors happened).
* `lean/Verif/Lemmas/*.lean` – helper lemmas and invariants.
* `lean/Verif/Props/*.lean` – the property theorems, named `Cnn_...`, with non-vacuity examples beside them.
* `properties.jsonl` (`tools/gen_properties.py`), `MANIFEST.json` (`tools/gen_manifest.py`), `seeded/LOG.jsonl` (wrong
  programs tried against the theorems), `tools/coverage.py` (which Go functions the model cites).

Conventions. A theorem `Cnn_..._partial` proves the part of property Cnn that is true of the code, its comment says what is
missing. A theorem `Cnn_..._violated` proves that the code does *not* satisfy part of the English statement: the code is
modelled as it is, not as it should be. Some are witnesses (one history), most are universal (everything of a certain
shape goes wrong). A property with one of these is `partial` in the manifest.

## Trusted base

* Lean's kernel (4.33.0), and the statement of the theorems with the definitions of `Model` and `Spec` they mention.
* The axioms `propext`, `Classical.choice` and `Quot.sound` of Lean, nothing else; the appendix lists them per theorem.
  No axiom is added, nothing is evaluated by compiled code (`decide +kernel` is reduction in the kernel).
* That the model says what the Go code does. It was written by reading; nothing was executed. What the model contains and
  what it leaves out is the next section.
* The Go language and library facts listed below.

### What is modelled

All the functions of the packages `syslog5424`, `sdata` and `sdata/timequality` are modelled, function by function, except
those listed under "not modelled" (`tools/coverage.py` prints the table).

| Go | Lean |
|---|---|
| `priority.go` | `Model/Priority.lean` |
| packages unicode and utf8, as far as used | `Model/Utf8.lean` |
| `helpers.go` | `Model/Helpers.lean` |
| `message.go` | `Model/Message.lean`, clock functions in `Model/Clock.lean`, timestamps in `Model/Time.lean` |
| `message-immutable.go` | `Model/Parse.lean` |
| `transport.go` | `Model/Transport.lean` |
| `sdata/tokens.go` | `Model/Tokens.lean` |
| `sdata/list.go`, `sd-unknown.go`, `sd-generic.go`, `timequality/tq.go` | `Model/SData.lean`, `Model/Meta.lean`; `append` on shared arrays in `Model/Alias.lean` |
| `sdata/structured-data-encoder.go`, `structured-data.go` | `Model/SDEncoder.lean` |
| `sdata/structured-data-decoder.go` | `Model/Meta.lean` |
| `sdata/exported-testing.go` | `Model/TestKit.lean` |
| the `_test.go` files | `Tests/Repo.lean`: every deterministic assertion, evaluated on the model (tests of the model, not proofs) |
| `syslog.go`, `channel.go` | `Model/Syslog.lean`, with the interleavings of concurrent `Channel` calls |
| `connector.go` | `Model/Sender.lean`: transition system, one event per step of a goroutine; `Model/Calls.lean`: `Send` and `End` step by step (C92) |
| `listener.go` | `Model/Tokenizer.lean` (the read loop, with the memory of its buffer), `Model/Footprint.lean` (the places a call reads or writes), `Model/Receiver.lean` (goroutines and channels), `Model/Stepwise.lean` (the same, message by message, C93) |
| `dialer.go`, `connector-*.go`, `listener-*.go` | `Model/Net.lean`, `Model/Dialed.lean`, `Model/Datagram.lean`; the operating system is a parameter |

The composition of sender, byte stream and receiver is in `Spec/EndToEnd.lean` and `Props/EndToEnd.lean`.

### Modelling decisions

* Bytes are `UInt8`, strings and byte slices are `List UInt8`.
* A Go panic is the value `Out.panic`; a loop that would never end is `Out.hang` (fuel exhausted, with a theorem that the
  fuel is always sufficient where the property is termination).
* A non-nil slice is `Slice {vis, spare}`: `spare` are the bytes between `len` and `cap`, because `s[i:j]` is legal up to
  `cap` (observable in `tqdef.Found`). A nilable slice is `Option Slice`.
* `int` is `Int`; 64-bit wrap-around is modelled where it can be reached (RFC 5425 header sum, `time.Duration`,
  `strconv.ParseInt`). `Priority` masks are computed on 64-bit two's complement.
* Errors are values of `Err`; the texts of those of the main package and of sdata/tokens.go are in `Model/ErrorText`, which
  contains a model of `strconv.Quote` (the table of printable runes above U+00FF is a parameter).
* Maps are lists of entries with distinct keys in an arbitrary order; theorems quantify over the order.
* Goroutines are explicit state machines whose steps are the atomic actions between synchronisation points; a history is
  any sequence of steps and of answers of the environment (`Connect`, `Write`, `Accept`, `Read`, ticks). Theorems quantify
  over all histories, hence over all schedules, failures and crash points.
* Liveness is stated as: in every reachable state some step is possible, a measure bounds the number of steps, or the goal
  can be reached without any failure, without fairness assumptions; C82 and later state it over endless executions with
  explicit fairness hypotheses (`Verif/Spec/Fair.lean`).
* The reflective encoder works on well typed pairs `GoType`, `GoVal t`.
* A `time.Time` is its civil fields and offset; for the clock functions it is an instant seen through an arbitrary zone.

### Facts about Go and the system that the model takes for granted

* `append`, slicing, `copy`, channel operations, `defer`, closing a closed channel and method calls on nil interfaces
  behave as the Go specification says; a method call on a nil `*net.TCPConn` (connector-tcp.go:85) panics.
* Interleavings are sequentially consistent. Data races of the code (`len(*c.queue)` without the lock, `accepted`,
  `Syslog.channels`) can only behave worse.
* `net.Buffers.WriteTo` calls `Write` once per buffer and consumes what was written; `Write` reports an error when it
  accepts less than it was given.
* `time.Format`/`time.Parse` for the two layouts used, `time.Unix`, `time.Date`, `Time.Add`, `strconv.Atoi`,
  `strconv.ParseInt`, `strconv.Quote`, `strings.Split`, `strings.TrimRightFunc`, `unicode.IsSpace`, `bytes.IndexByte`, `sort.Sort`, `fmt`'s
  `%v` of scalars (a parameter) are modelled from their documentation and source.
* Converting a NaN or out of range float to `int` gives the minimum, as on amd64 (`tq.go`, capacity of `make`).
* The letters and digits of Unicode above U+00FF (struct tags) are an opaque table, about which nothing is assumed. A `ReadFrom` that fails returns no bytes; a datagram larger than the buffer is cut.

### Not modelled

* The texts of the errors of sdata/errors.go:31-52 (they print Go types), the names of transports and of the registry, `Addr`,
  `Options`/`SetOptions` (never called), the texts of the errors of `DoTest`, `Message.Now`'s reading of the clock (any time).
* Socket options, `SetLinger`, buffers of the kernel, TLS, DNS (a parameter).
* User implementations of `Transport` that
  change the buffer they are given or have a state (others: C86), and of `StructuredData` beyond the result of
  `Marshal5424`.
* Memory use, but for the queues and buffers (C88).
* The Go memory model below sequential consistency; C87 states the absence of data races of the sender after it, C90 the places that the accessors of a received message share with the receiver.

## The properties

For each property: what is modelled, how it is proved. "Invariant" means an inductive invariant over all histories.

| property | model | how it is proved | status |
|---|---|---|---|
| C01 Priority wire round trip | Priority | arithmetic, all integers | proved: Full. |
| C02 Priority decoder accepts exactly the PRI grammar | Priority | grammar of PRI, both directions | proved: Full. |
| C03 Facility and severity split a priority | Priority | bit masks as arithmetic | proved: Full. |
| C04 Priority flag syntax: Set and String agree | Priority | string tables by case analysis, lifted to all integers | partial: What String prints is characterised for every priority. Violated: the wire decoder accepts facilities above 23, on which String panics (C04_string_violated); for the facilities 12 to 15 String prints a name that Set refuses (C04_string_unnamed_violated). The rest is proved. |
| C05 Header fields are sanitised | Helpers | list induction | proved: full. |
| C06 Messages built through the API always have valid header fields | Message | invariant over sequences of setters | partial: Full for all setters except LocalHost, which stores the unsanitised OS host name (C06_localhost_violated). C06_last_wins and C06_sd_added say what every field is after any sequence of calls. C06_exact_iff: exactly when. |
| C07 The text is trimmed on the right only | Helpers | list induction against a specification of white space | proved: full. |
| C08 Marshalled messages obey the RFC 5424 grammar | Message, SDEncoder; Spec/Rfc5424 | structural, against the grammar | proved: Full, for every message that meets the hypotheses of the property. |
| C09 Parse terminates and never panics | Parse, Transport | case analysis of every exit; exact panic conditions | partial: Termination holds for every input. The code violates the no-panic part (C09_no_text_violated: messages without text with the LF/NUL transports, truncated RFC 5425 frames at end of file); the exact panic conditions are proved. |
| C10 Accessors of a parsed message never panic and return the wire fields | Parse | invariant on the five indexes | partial: Field accessors: full. StructuredData/Writable panic on a short last element in an exactly sized buffer when timequality is imported (C10_short_element_violated); proved otherwise. The message that comes with an error, and with no error when there is no frame, is the zero one: every accessor but String and Text panics on it (C10_zero_violated). |
| C11 Encode then parse gives the same message | Message, Parse, SData | scanning lemmas by induction on parameters and bytes | partial: Proved for elements with at least one parameter and, next to structured data, texts in which every ']' comes after a backslash and is not the last byte (exactly those that survive, C12); violated otherwise (C11_no_params_violated, C12_text_violated). |
| C12 Any text survives next to structured data | Parse | exact condition on the text | partial: The code violates the property; the exact set of texts that survive is proved. |
| C13 Parsing is lossless | Parse, Transport | index invariant | partial: Violated for truncated frames and for the byte between structured data and text (C13_truncated_violated, C13_separator_violated); proved otherwise. |
| C14 Parse, Writable, Marshal is the identity on canonical messages | Parse, Message | composition of decode and encode lemmas | partial: Proved for reproducing decoders, for an empty registry and for timequality with positive accuracy; violated by timeQuality elements with zero values (C14_timequality_violated). C14_timequality_iff: with timequality imported, exactly for messages whose timeQuality elements are in their shortest form. |
| C15 RFC 5425 framing is binary safe | Transport | decimal lemmas | partial: Violated for frames shorter than 20 bytes (C15_short_frame_violated); proved for all others. C15_exact_iff says exactly which values are reproduced. |
| C16 LF and NUL framing round trip | Transport | first occurrence of the terminator | proved: full. |
| C17 An incomplete RFC 5425 frame is waited for, not an error | Transport | decimal lemmas | proved: full. |
| C18 RFC 5425 header is checked | Transport | case analysis with 64-bit wrap-around | partial: Violated by negative or overflowing length headers (C18_negative_header_violated); the exact panic condition is proved. |
| C19 One log call is one received message (no injection) | Transport, Parse | C11, C15, C16; forged messages as theorems | partial: Proved for RFC 5425. Violated for LF and NUL framing when the text contains the terminator (C19_terminator_violated); proved otherwise. |
| C20 Structured data values are escaped reversibly | SDEncoder, Tokens | induction on the value | proved: full. |
| C21 Map structured data is encoded deterministically | SDEncoder | sorting is independent of the order; C21_exact: every value, item by item | proved: full. |
| C22 Unknown structured data round trips | SData | induction on parameters | partial: C22_decodes_iff is the exact condition. Elements without parameters are never decoded (C22_no_params_violated); everything else proved. |
| C23 timeQuality round trip and validity | SData | case analysis; exact panic condition | partial: Accuracy <= 0 panics (C23_zero_accuracy_violated); everything else proved. |
| C24 Structured data decoders never panic | SData | fuel bound, exact panic condition | partial: Short elements at the end of their buffer panic when timequality is registered (C24_short_element_violated); exact condition proved. |
| C25 Structured data list encoding | SData | list induction | proved: full. |
| C26 Registry: first registration wins, lookup is order independent | SData | list induction, permutation | proved: full. |
| C27 Struct structured data encoding | SDEncoder | induction on types and values; C27_exact: the result is that of the items of the specification (Spec/EncoderExact), for every value | partial: C27_exact gives the result for every struct value: which parameters, which error, or a crash, against an item by item specification. The code violates the no-panic part: a missing mandatory field, an interface field, an unexported field (C27_mandatory_violated, C27_panics_violated); arrays are never encoded (C27_array_error_violated). |
| C28 Messages are values: deriving one never changes another | Alias: arrays, lengths, capacities, any growth policy | invariant over derivations | partial: Violated: two derivations from a message whose array has room (e.g. three elements added one by one) overwrite each other (C28_sibling_violated). Proved: originals never change, and everything is a value when no non-empty list is extended twice, or when append leaves no room. |
| C29 Severity filter | Syslog | invariant over call histories | proved: Full for sequential histories; concurrent first calls are C57. |
| C30 Messages carry the channel's facility and severity | Syslog | invariant over call histories | proved: Full. |
| C31 Derived channels stay live and valid | Syslog | case analysis, reachability | partial: Violated after Msgid: AppName and Msgid of a channel given by Msgid are /dev/null (C31_msgid_violated); proved for the others. |
| C32 Everything sent by a Syslog has valid header fields | Syslog | invariant over call histories | partial: Violated by SubSyslog, which does not sanitise the name (C32_sub_violated); proved when the path is valid, in particular without SubSyslog. C32_exact_iff: exactly when. |
| C33 Channels are io.Writers that accept everything | Syslog | case analysis | proved: Full. |
| C34 Sender: exactly once, in order, across reconnections | Sender | invariant: written ++ queued = accepted | proved: Full. |
| C35 End flushes | Sender | invariant | proved: Full. |
| C36 End never crashes the program | Sender | complete list of crash causes | partial: Violated: End without a connection crashes (C36_end_violated). Proved: the complete list of crash causes, and no crash when nothing fails and something was sent. |
| C37 Every connection carries whole frames | Sender | invariant on the position in the queue | partial: Violated after a partial write followed by an error (C37_reconnect_violated). Proved for the first connection, for every connection that begins at a frame boundary (C37_boundary_partial), and for all connections when failing writes accept nothing (datagrams); C37_goes_on says in general what a connection carries. |
| C38 Sender never blocks its users | Sender | measures, stuck states | partial: Violated when nobody reads the error channel (C38_write_errors_violated, C38_connect_errors_violated). Proved: bounded lock holding, progress, End can return when errors are read and nothing fails any more. |
| C39 An accepted Send is delivered unless the sender was ended | Sender | invariant, measure | partial: Flush after a tick, progress and silence after End: full. Violated for a Send concurrent with End (C39_lost_violated). |
| C40 Receiver reassembles RFC 5425 streams | Tokenizer, Transport | induction over reads with a flow invariant | partial: Violated for frames shorter than 20 bytes, which are not delivered (C40_short_frame_violated). Proved for frames of at least 20 bytes: exactly the frames that have arrived entirely have been delivered, in order, once, with their payloads; and what happens with shorter frames (C40_short_frames_partial). C40_returned: the same wherever the stream is cut, also by an early end of file, as long as there is no crash; C40_crashes_exactly: there is a crash iff the end of file comes together with bytes that end inside a payload right behind the structured data. |
| C41 Receiver reassembles LF and NUL terminated streams | Tokenizer, Parse | same | partial: Violated: a read that ends just after the '-' of the structured data crashes (C41_cut_after_dash_violated); messages without text (C41_no_text_violated) and with structured data (C41_structured_data_violated) are not separated. Proved for lines without structured data and with a text, for all segmentations that do not cut after that dash; C41_crashes_exactly shows that such a cut is the only way to crash on these streams, and always does. C41_segmentation_violated: the same bytes give one message in one read and two messages in two reads. |
| C42 The receive loop always makes progress | Tokenizer | memory invariant | partial: Violated: an unfinished frame larger than the free room makes Read get an empty slice and the loop spins (C42_stall_violated). Proved: room is left after each pass while less than the buffer is pending, and progress. C42_stuck_exactly: for any transport and any bytes, a connection is stuck iff its buffer is full, and then at least 500 bytes wait; C42_room_lines_partial is the LF/NUL counterpart of C42_room_partial. |
| C43 A received message is immutable | Tokenizer | memory regions are disjoint | proved: Full: no later pass of the loop changes the bytes of a delivered message. |
| C44 Receive preserves per-connection order and loses nothing | Receiver | invariant over interleavings | proved: Full, for all interleavings and any number of connections. The composition with the tokenizer is C53_receive_partial. |
| C45 Ending a receiver is safe | Receiver, Datagram | complete list of crash causes | partial: Violated: a connection that decodes a message after End crashes the program (C45_end_violated, C45_doomed_violated); End does not stop a blocked Accept (C45_accept_blocks_violated). Proved: at most one more Accept returns after End, and the complete list of crash causes. On a datagram listener (Verif/Model/Datagram.lean) End has no effect once the second Accept is entered (C45_datagram_violated). |
| C46 An accept error is reported, not fatal | Receiver, Datagram | invariant | partial: Violated: a failed Accept starts a goroutine on a nil connection, which crashes (C46_accept_error_violated). Proved: every error is put on the error channel exactly once. |
| C47 Datagram reader delivers all bytes in order | Net | induction over reads | partial: Datagrams longer than the 65536-byte read buffer are truncated (C47_truncated_violated); without them the stream is the concatenation in order, for every read size. C47_exact, C47_exact_iff: exactly when. |
| C48 Dial selects connector and transport by network | Net | case analysis | proved: full. |
| C49 Listener selection | Net | case analysis | proved: full. |
| C50 Local connector search order | Net | induction over candidates | proved: full. |
| C51 TCP connector dials only addresses of the requested family | Net | induction over addresses | partial: Violated: no address of the wanted family gives a panic, not an error (C51_no_address_violated). Proved otherwise. C51_panics_iff: exactly which values make it panic. |
| C52 Timestamps round trip with microsecond precision | Time, Parse | digit lemmas | proved: Full. C52_other_years: outside 0..9999 the time is lost. |
| C53 End to end delivery | Sender, Tokenizer, Receiver, Message, Parse | composition of C34, C40, C44, C11 | partial: Proved for the composition of Sender and Receiver over RFC 5425: on the first connection whatever happens (C53_in_order_partial, C53_complete_partial, C53_end_partial; C53_writev_partial when the connection takes several frames at once), and over any number of reconnections that happen between two frames (C53_reconnect_partial, C53_all_connections_partial); for messages that both halves handle: valid header fields and time, structured data elements with a parameter, no ']' in a text next to structured data (C12_text_violated), less than 2^62 bytes; the receiver must not have crashed (C45, C46). Missing: a reconnection after a write that was cut inside a frame, where the claim is false: C53_cut_violated, this message and all behind it are lost silently. |
| C54 Old-style stamps get the right year | Clock | grammar of stamps, calendar arithmetic | partial: Characterises time.Parse(time.Stamp): parseStamp_iff against the grammar StampReads. C54_recent: the exact date for events of the last 31 days. Fails: February 29 in a common year becomes March 1 (C54_leap_violated), a stamp of January 1 read on December 31 is a year off (C54_ahead_violated). The current year is read in the local zone, the stamp in UTC. C54_exact: exactly what is reported. |
| C55 Listening sockets: stale sockets are replaced, other errors reported | Net, file system as a parameter | induction on the loop | partial: Violated: whatever is at the path (a regular file, the socket of a live server) is removed (C55_destroys_violated), and an address that stays in use is retried for ever (C55_endless_violated). Proved: what is returned, and when. |
| C56 Unix datagram listener accepts once | Net, Datagram | invariant; race witness | partial: Proved for every history in which Accept is called by one goroutine at a time, as the receiver does. Fails for concurrent calls (C56_race_violated: the flag is not protected) and for a second Close (C56_double_close_violated: panic). |
| C57 Concurrent calls of Channel | Syslog, concurrent | invariant; race witness | partial: Violated when the first calls are concurrent (C57_race_violated); proved: never a wrong or crashing result but /dev/null, and all results right once one call has returned. |
| C58 Connections are closed | Sender | invariant | partial: Violated after a failed write (C58_leak_violated); proved without such failures. |
| C59 Sender errors are reported once, in order | Sender | invariant: failures = received ++ queued ++ pending | proved: Full. |
| C60 A finished connection stops its reader | Tokenizer | case analysis of a pass | partial: End of file always ends the loop; violated for read errors (C60_read_error_violated): the loop reports them and reads again for ever. |
| C61 A malformed message costs only itself | Tokenizer | flow invariant with bad payloads | partial: Violated: bytes that start with a space are neither delivered nor reported, nor is anything after them (C61_poisoned_violated). Proved for RFC 5425: a badly formed payload costs one error and the messages before and after are delivered. With the LF and NUL transports the claim is false: C61_lines_silent_violated (no error is ever delivered, whatever arrives), C61_merged_violated (garbage swallows the message behind it). |
| C62 No peer can crash or hang the receiver | Tokenizer, Parse | exact panic conditions | partial: Violated: a peer can crash the receiver (C62_remote_crash_violated). Proved: every pass terminates, and the complete list of what makes it panic. For RFC 5425, C80_crashes_exactly characterises the crashing streams completely. |
| C63 Unread errors do not stop reception | Receiver | stuck states | partial: Violated: the error channel holds 10 errors, the goroutine that reports the next one stops for ever (C63_unread_errors_violated); one failing connection suffices (C63_one_connection_violated). Proved: with fewer unread errors nobody is blocked. |
| C64 Epoch sets the instant its arguments say | Clock | Gregorian calendar by division | proved: The calendar computation of the standard library (absDate) is modelled and proved against the Gregorian calendar; the zone is an arbitrary function of the instant bounded by two days. |
| C65 Delta adds to the boot time | Clock | 64-bit arithmetic | partial: Full when the sum fits in a time.Duration; beyond, the timestamp goes back in time (C65_overflow_violated). C65_exact_iff: exactly when. |
| C66 A message cut by the end of the connection is delivered or reported | Tokenizer, Transport | flow invariant | partial: The claim is false with every transport: the unfinished frame is dropped silently (C66_terminated_violated, C66_rfc5425_violated); some cuts crash the program instead (C62_remote_crash_violated). What holds: the frames before the cut are delivered, and with RFC 5425 nothing crashes when the end of file comes alone, whatever the cut frame contains (C66_frames_before_partial). |
| C67 UnmarshalSD decodes what MarshalSD encoded, or reports an error | Meta | case analysis | partial: The decoder is not implemented: it reports success and stores nothing. Proved: invalid targets are reported. |
| C68 The identifier of structured data is the SD-ID on the wire | Meta, SDEncoder | induction on types | partial: Proved for TimeQuality and GenericSD of structs and maps; fails for unknown structured data, which all share one identifier, and for String(). |
| C69 Registered generic structured data is decoded and can be re-encoded | SData, Meta | case analysis | partial: Both halves fail: no element with a parameter is recognised, and what is recognised cannot be encoded. C69_registered: under which name a generic identifier is registered, and what it recognises. |
| C70 Ending a sender leaves the process's standard streams open | Sender, Dialed | invariant | partial: False: the stream is closed in every history in which End returns (C70_closed_violated); then the next sender loses everything and cannot be ended (C70_next_sender_violated). Proved: nothing is closed before End. |
| C71 A sender whose destination is invalid reports it and can be ended | Sender, Dialed | invariant | partial: Dial accepts the address (C71_dial_violated); End never returns, or crashes (C71_end_violated, C71_crash_violated). Proved: each attempt reports its error. |
| C72 End to end delivery over line transports | Sender, Tokenizer, Receiver, Message, Parse | composition of C34, C41 (with the exact characterisation of its crashes), C44, C12 | partial: Proved for the composition of Sender and Receiver over the LF and the NUL transports, for messages without structured data and with a text without terminator, as long as the receiver has not crashed: on the first connection, and over any number of reconnections that happen between two frames. Violated: whatever is sent, a read that ends right after the '-' of the first message crashes the receiver (C72_crash_violated; C41_crashes_exactly: nothing else does). Outside the claim: messages without text or with structured data (C41_no_text_violated, C41_structured_data_violated); a reconnection after a write that was cut inside a frame (C37_reconnect_violated): then, whatever is sent, what is received first from the next connection is a piece of a message that was never sent, without error (C72_cut_violated). |
| C73 What is logged is what is received | Syslog, Message, Sender, Tokenizer, Receiver, Parse | invariant: the Syslog is as New made it, up to its table; composition with C53 | partial: C73_sent is complete: every list of log lines, no panic, exactly the right messages. C73_received_partial, C73_complete_partial (RFC 5425, one connection), C73_lines_received_partial (LF and NUL, LoggableLine), C73_all_connections_partial and C73_lines_all_connections_partial (several connections, changed between two frames) compose it with C53 and C72. Violated with the LF and NUL transports: an unlucky read crashes the receiver (C73_crash_violated). Missing: reconnection after a write cut in the middle of a message (C37_reconnect_violated), texts with ']' next to structured data (C12_text_violated), a Channel used by several goroutines while its table is built (C57_race_violated). |
| C74 Messages in datagrams, from several senders to one socket | Datagram.gramLoop (Net.fakeRead + Tok.step), Receiver, Sender, Parse | induction over the iterations (invariant: nothing pending, 500 bytes of room); merge of the senders; composition with C37, C44 | partial: Complete for frames of at most 500 bytes (C74_each_datagram_partial, C74_received_partial; with the LF and NUL transports the text must not be empty or contain the terminator, C18/C41; next to structured data the texts that survive, C12; a failing Write accepts nothing, which is so for datagrams). Up to 64 KiB: in order and intact, as far as it goes (C74_any_size_partial, C74_any_size_lines_partial). C74_stall_violated: for larger frames the loop can stop for ever and take no datagram any more. |
| C75 A flush delay of at most a millisecond disables automatic flushing | Net.dial, Dialed.can, Sender | induction over the history: the goroutine stays in its select | proved: Full. |
| C76 How a connection groups its writes does not matter | Writev.stepV, Sender.step, Net.Local.connect | simulation: a writev is a sequence of writes that ends in the same state but for the grouping; C34, C35, C37, C39, C59 transfer | proved: Full, for the properties of the Sender listed; the datagram properties (C37_datagram_partial, C74) are about sockets that never use writev (C76_datagrams). |
| C77 The registry of structured data can be used by several goroutines | Registry.step, Registry.run | invariant: only the holder of the lock looks at the map, and its position in the loop says which SDIDs refused; the log of returned calls is a sequential execution. Progress by a measure; the deadlock by an invariant over all continuations | partial: Linearizability, program order, real time order and the first registration are proved for all SDIDs (C77_one_by_one, C77_program_order, C77_real_time, C77_first_wins); that every call returns is proved when no Found method calls the package (C77_returns_partial), which is the case for the SDIDs of the package (C77_package), and violated otherwise: Parse holds a lock that is not reentrant while it calls Found, so a Found that calls Parse, Register or RegisterGroup blocks the registry for ever (C77_reentrant_violated). |
| C78 Structured data made from Go values arrives as these values | SDEncoder, SData, Meta, Parse; Spec/Content.lean (Holds, Named, texts) | exactness of the encoder (C21_exact, C27_exact), injectivity of the element text by splitting at the first byte that is not a name byte, soundness of the unknown decoder for the converse | partial: Proved for every struct and map whose identifier and names are RFC 5424 names, with at least one value per element: C78_arrives_partial (parse of the frame), C78_received (after any theorem that concludes IsReceived: C53, C61, C72, C73, C74), C78_injective, and C78_names says that these are exactly the names that come back. Violated by the code: map keys are written raw, so that a key forges an element (C78_key_violated, C78_forged_violated), and tags with a space, '=' or ']' are accepted (C78_tag_violated). An element without value is C22's violation; a ']' in the text is C12's. |
| C79 Everything received is cut from the wire | `Tok.step` (memory and all), `parse` with its three transports, `Recv.step` | Invariant over runs: one call of `Parse` that leaves a rest cuts exactly one frame (case analysis of `Parse` on arbitrary bytes), the decoding loop by induction on its iterations, one read by the buffer arithmetic of `step`, all reads by induction on the run; the receiver by C44. | proved: C79_cut_from_wire: for any byte stream, any segmentation and each of the three transports, a run that does not crash satisfies arrived = pieces.flatten ++ pending with each piece a frame accounting for one delivered pair (Spec/Wire.lean: RFC 5425 length headers with sign and leading zeros are allowed, because the code reads them; terminated messages are cut at the first terminator behind the byte that follows their structured data). C79_receive says it of what Receive returned from one connection. When the program crashes (C62, C41) nothing is said. |
| C80 An RFC 5425 receiver is a function of the bytes, not of the reads | `Tok.step` over arbitrary bytes with the RFC 5425 transport; `Recv.step` | `Parse` is characterised exactly on every buffer (crash, frame taken, no frame), then refinement of the decoding loop to the relation `Decodes`/`CrashesOn` by induction on its iterations, and of a run by induction on the reads, using that frames stay frames when bytes are appended; determinism of the reference by induction. | proved: The reference decoder is Spec/Wire.lean (Ready, Decodes, CrashesOn): frames are cut from the front while at least 20 bytes are there, the bytes before the first space are a decimal number and the payload is complete. C80_decodes (any run that returns), C80_crashes_exactly (iff, any run), C80_functional (the reference is deterministic), C80_segmentation (two runs over the same bytes), C80_receive (what Receive returned). The same is false for the LF and NUL transports: C41_segmentation_violated. C80_no_number: nothing is ever delivered from a stream whose first word is not a number. The counterpart for LF and NUL is C89. |
| C81 A parse error says what is wrong and where | `parse` (all of message-immutable.go:Parse), `Transport.prefixStrip`, `Tok.step` | The errors of the header loop by induction on the fields already read; those of the structured data loop by an invariant (what was skipped is `Closed` and ends with a bracket); exclusivity of the cases by uniqueness of the first stray bracket; the transports by the exact cases of PrefixStrip; receivers through C80_decodes. | proved: The table of errors is Spec/Diagnosis.lean (Wrong), with the transport errors in Spec/Wire.lean (WrongFrame, WrongLine). The three *_exactly theorems are equivalences for every buffer. C81_total: Wrong covers exactly what is not a Frame; C81_unique: one error per input; C81_position: the byte at the position is the offending one; C81_received: what a receiver delivers. The copy of the data in a ParseError is not modelled. For RFC 5425 at end of file a payload that is cut is only reported (ErrTransportIncomplete) when what is there of it is malformed: see C13_truncated_violated. |
| C82 A fair sender eventually writes, lets Send return and lets End return | `Sender.step` (connector.go:runQueue, flushQueue, Send, End), infinite executions of it | A rank lemma (`eventually`): a rank that no event increases and every step of the goroutine decreases reaches the goal under weak fairness. Ranks: distance to the next flush, to the end of the flush, to the release of the lock, to the select, to the end of the deferred function. Enabledness from the invariant of C34. Then C34_exactly_once at the end of the flush. | partial: Fairness is stated in Spec/Fair.lean: weak fairness of the steps of the goroutine (Running), errors read (ErrorsRead), no failure from some moment on (Recovers), sends stop (SendsStop), and a select that is not biased for ever (NoticesEnd). C82_starved_violated shows that SendsStop cannot be dropped: an explicit infinite fair execution, without any failure, in which End never returns. Concrete infinite executions (a finite sequence of events with a loop) meet all the hypotheses of the three theorems. |
| C83 A fair receiver eventually returns everything that has arrived | `Recv.step` (listener.go:runQueue, tokenize, Receive), infinite executions of it | The queue is FIFO (`step_fifo`), so what waits in it is received by the rank of what is missing; a connection gets to the queue because room appears again and again (strong fairness), with rank 2 * pairs left + error left; C44_order identifies what is decoded, C80_decodes what it is. | proved: Fairness in Spec/Fair.lean: Consumed (weak fairness of Receive), Served i (strong fairness of the sends of one connection's goroutine: Go serves blocked senders in order), ErrorsDrained. C83_received is for every transport, in terms of the tokenizer run; C83_frames states it with the reference decoder of C80; C83_reads_on is about Read and the deferred Close. |
| C84 From Send to Receive, eventually | `Sender.step`, `Recv.step`, `Link` between their executions | Composition of C82, C83 and the lemmas behind C53/C72; the invariant that without a failing write there is one connection at most. | proved: Composition of C82 (everything is written), the network (Spec/Fair.lean: Link, faithful and live), C83 (everything decoded is received) and C53/C72 (what the decoded messages are). C84_end uses C82_end_returns and C35. The example at the end of Props/Delivery.lean is an infinite execution of both sides that meets every hypothesis. Sequences of connections (reconnect after a failed write) are not covered here: C37_reconnect_violated and C53_cut_violated show what happens then. |
| C85 A receiver keeps accepting connections, and ends | `Recv.step` (listener.go:runQueue, End, Receive), infinite executions of it | Rank of the accepting goroutine's program counter under strong fairness (`Accepting`); nothing enters a closed queue; FIFO of C83. | partial: Violated when no connection comes after End: the goroutine stays in Accept and Receive blocks for ever (C85_stuck_violated, a fair endless execution). Proved otherwise. That the queue is closed while connections still send to it (a panic) is C45/C46. |
| C86 A transport written by the user works like the built-in ones | `UserTransport`: the interface left open in `Parse`, the tokenizer and `Send` | The reassembly argument of C40 and the invariant of C34 with the transport as a parameter; `parseReturn` does not use the transport when there is a rest. | partial: Violated for errors: an error that PrefixStrip reports together with a well formed payload is lost (C86_fault_violated). Everything else is proved for every transport that meets the contract SelfDelimiting (Spec/UserTransport.lean). C86_builtin_*: with the built-in transports the open model is the model used everywhere else. C86_rfc5425 and C86_stuffing: RFC 5425 (frames of at least 20 bytes) and a byte stuffing transport meet the contract. C86_needs_progress: without it the loop of the receiver need not end. |
| C87 A sender can be used by several goroutines without data race | `Race`: the accesses and the synchronisation of every event of `Sender` | Happens-before as an inductive relation over the operations of a history; the holder of the lock acquired it and has not released it, by induction on the history. | partial: Violated: the deferred function of the sender's goroutine reads the length of the queue without the lock (connector.go:112); nothing orders it and a Send that is concurrent with End (C87_concurrent_end_violated, for every synchronisation the user may add). Proved: this is the only race (C87_only_after_end), so there is none while End is not called (C87_no_end_partial), nor when every accepted Send happens before End or after End returned (C87_quiet_end_partial). |
| C88 Memory stays bounded when the user or the network is slow | `Recv` and `Tok` | An invariant that accounts for every byte read: returned, queued, decoded from the last read, or waiting; everything from one read fits in the buffer. | partial: The receiver meets it (C88_backpressure, C88_queues, C88_unread). The sender violates it: its queue has no bound (C88_sender_violated). |
| C89 What an LF or NUL receiver delivers from any bytes | `Tok` with `Parse` and `SuffixStrip` | Induction on the decoding loop and on the reads, against the inductive reference decoder; uniqueness from the determinism of `Parse`. | proved: The counterpart of C80 for the terminated transports: a reference decoder (`DecodesReads`), exact for every list of reads, and the exact condition of a crash. With a closing bracket in the stream the reads do matter: C41_segmentation_violated. |
| C90 A received message can be used while the receiver goes on | `Tok` with the places each call reads and each `Read` writes (`Model/Footprint`) | Memory invariant of the tokenizer (`Held`): what lies behind a delivered message keeps its length, and the accessors depend on nothing else; the places come from the invariant and from a bound of the indexes. | partial: Violated for StructuredData and Writable: tqdef.Found compares the eleven bytes behind the opening bracket whatever the length of the element, so that for a short element at the end of a message it reads bytes that the next Read writes (a data race, without effect on the result: C90_any_time). Proved for every other accessor, and for these two when the text has ten bytes or more. |
| C91 A sender with any connector function | `Sender` extended with the two other results of `Connect` and with a panic that runs the deferred function (`Model/UserConn`) | Invariant over all histories, as for C34 and C59, without the fact that the connection is there; the violations by an invariant from the strange result on, and by concrete histories. | partial: The order and the reporting of errors are proved for all connectors (C91_same: with the connectors of C34 nothing changes). Violated: flushQueue assigns the connection before it looks at the error, so that the connection is kept and used until a Write fails; a nil connection without error makes the sender panic as soon as there is something to send. |
| C92 Send and End can be called by several goroutines at the same time | `Model/Calls`: every call of `Send` and `End` is a sequence of steps of its goroutine, with the lock | Simulation of `Sender.step` with explicit linearization points (the `append`, the failed `Marshal5424`, the `close`); invariant relating the place of every goroutine to its calls; then C34 and C35. | proved: Linearizability of Send and End: justifies that Model/Sender has one event per call; conversely (C92_complete) every history of that model comes from a history made of steps. |
| C93 A receiver gives each message before it decodes the next one, and this changes nothing but the moment of a crash | `Model/Stepwise`: the loop of `tokenize` message by message, with the pair being sent | Simulation in both directions with `Model/Receiver`; a connection that will panic is matched by one that did not see its last bytes until the crash. | proved: Removes the simplification of Model/Receiver that one read is decoded in one event: the theorems about that model (C44, C45, C46, C63, ...) hold for the receiver that decodes message by message. |
| C94 The text of an error is one printable line that shows what was received | `Model/ErrorText`: `strconv.Quote` with UTF-8 decoding, `ParseError.Error`, the texts of errors.go, priority.go, dialer.go and sdata/tokens.go | Each rune or invalid byte is written as one piece of a Go literal, and each piece is printable; the pieces are prefix free, so that a literal stands for one string and shows where it ends. | partial: Violated for Priority.Unmarshal5424, Priority.Set and Dial, whose errors print their argument as it is (C94_raw_violated). With a terminated transport the text shows all the bytes of the buffer, not only those of the line (C94_shows_terminated). |
| C95 The published test helpers pass exactly on what they are meant to establish | `Model/TestKit`: `DoTest` of the test makers of sdata/exported-testing.go, `reflect.DeepEqual` on the known types, the identity of errors | The exact characterisations of the timeQuality decoder and encoder (C23), uniqueness of decimal notation; induction over Go types for the freshness of the encoder's errors. | partial: Holds for the timeQuality identifier on texts of at least twelve bytes. Violated: short texts between brackets and the empty text panic (C95_short_texts_violated); errors of the generic encoder are compared by identity and allocated by the call, so that no TestInvalidMarshal of a generic element with an error ever passes (C95_generic_errors_violated); no TestValid ever passes on a generic identifier (C95_generic_valid_violated). Comparing two ParseError values panics (C95_parse_errors_violated). C95_generic_struct: the test of a generic struct passes exactly on its wire form. |
| C96 Structured data made from Go values obeys the RFC 5424 grammar | `Model/SDEncoder` with the runes of `Model/Utf8`; Spec/Rfc5424, Spec/Tag | The exact encoder (C27_exact, C21_exact), unambiguity of element texts, C08_grammar; UTF-8 decoding is the inverse of encoding for every scalar value. | partial: Proved if the identifier and the names are SD-NAMEs, and then only then (C96_exact, for names without delimiters). Violated: tags of more than 32 bytes or with letters that are not ASCII are accepted (C96_tag_violated), keys and identifiers are not checked (C96_key_violated, C96_identifier_violated), an identifier can occur twice (C96_twice_violated). |
| C97 The timestamp of a received message is the one that was written, and the zero time if there is none | `Model/Time` (time.Parse with the package's layout), `Model/Parse`; Spec/TimeRead | time.Parse step by step is equivalent to a grammar with values; the field of a received message from the view of Parse. | partial: Proved: which byte strings are read, and as what (C97_timestamp, for every message Parse returns, whatever the transport); every RFC TIMESTAMP is read as the time it says (C97_rfc, C97_received). Violated: a comma as decimal point, hours of one digit, more than six digits and offsets up to 24:60 are not TIMESTAMPs and are read all the same (C97_lenient_violated). |
| C98 Several goroutines can log through one Syslog: every line arrives once, each goroutine's in its order | `Model/Syslog`, `Model/Calls`, `Model/Tokenizer`, `Model/Receiver`; Spec/LoggingMany | C73's meaning of a line, linearizability of Send and End (C92), end to end delivery (C53, C72); the linear order of the messages is relabelled with the lines of the goroutines. | partial: Proved at every moment (C98_received_partial, C98_lines_received_partial) and for the whole (C98_complete_partial, C98_lines_complete_partial), for lines that can be transmitted, on the first connection of the sender, if Channel was called once before the goroutines start. Over the several connections of a sender that reconnects: C98_all_connections_partial, C98_lines_all_connections_partial (each line received exactly once, if failing writes had accepted nothing). Without that call lines can be lost (C98_race_violated, the race of C57). |
| C99 Structured data is received as values of the registered types | `Model/SData`, `Model/Parse`; Spec/Receive (`ReadAs`), Spec/Registered | What Parse, the tokenizer and the receiver deliver is characterised for every registry (`Conveys`, `IsReceived`); exact characterisations of the three decoders (C22, C23, C24). | partial: C99_registered for any registry; C99_package_partial, C99_itself, C99_content and C99_sent_partial for the identifiers of the package. Missing: elements shorter than a registered name, on which StructuredData panics when the buffer ends with them (C99_short_violated). |
| C100 A sender that reconnects delivers everything it was given | `Model/Sender`, `Model/Receiver`; Spec/Reconnect (`Links`, `receivedOver`), Spec/Fair | Earlier connections are never written to again (`Grows`), so what arrives on each of them is final; C82 (everything is written), C73 (each connection carries whole frames), C83 (everything that arrives is delivered). | partial: C100_delivered_partial (RFC 5425), C100_lines_partial (LF and NUL), C100_clean (when connections are changed between two frames). C100_connection_partial, C100_connection_lines_partial: with any failures, fair or not, what is written whole to a connection that began between two frames is received. Missing: connections that begin inside a frame (C53_cut_violated, C72_cut_violated), after a connection that fails inside a frame; then the message is lost although everything else works (C100_midframe_violated). |
| C101 Every line that is logged is eventually received | `Model/Syslog`, `Model/Sender`, `Model/Receiver`; Spec/Logging (`Says`), Spec/Reconnect (`LoggedBy`) | C73 (the messages that lines send, `logged_says`) composed with C100 (eventual delivery over reconnections). | partial: C101_logged_partial (RFC 5425, Loggable lines), C101_lines_partial (LF and NUL, LoggableLine lines). Missing: a connection that fails inside a frame (C100_midframe_violated, the same executions) and lines that cannot be transmitted (C12, C22, C41). |
| C102 Several goroutines can call Receive: every message goes to exactly one call | `Model/ReceiveCalls`: calls of `Receive` and `End` by goroutines, step by step; Spec/ReceiveCalls (`Shares`, `Worker`, `Returns`) | Invariant: which goroutine holds which message; a closed and empty pipeline stays so. Fairness: the next own step of a goroutine (`next_own`), then C84. | proved: C102_atomic relates the calls with a beginning and an end to the single events of Model/Receiver, so that all theorems about the receiver apply (C44, C45, C83); C102_shared, C102_connection, C102_all, C102_ended for every history; C102_one_worker, C102_returned, C102_delivered, C102_lines for fair executions. C102_complete: conversely every history of Model/Receiver comes from one in which one goroutine calls. |
| C103 A Syslog on which Channel was called once can be shared by goroutines without data races | `Model/SyslogShared`: Channel, SubSyslog, TestMode, Log and assignments of Now, one step per access to a location that changes; Spec/SyslogRace (`Before`, `DataRace`, `Careful`, `ReadyToShare`) | Every access belongs to a call (induction on the execution); which calls can conflict (cases); a call made when the table is there does not build it. | partial: C103_shared_partial, C103_no_race_partial (no race), C103_channel, C103_sub_partial (results), C103_no_panic for an object that is ready; C103_first_partial for a fresh one. Missing: two first calls of Channel at the same time race whatever the program does (C103_first_violated), and so do TestMode and SubSyslog, with a result that no order of the calls gives (C103_testMode_violated). |
| C104 Every call of Send and End returns, and what concurrent goroutines send or log is received | `Model/Calls`, `Model/Receiver`; Spec/SendCalls (`FExec`, `RunnerScheduled`, `Scheduled`, `CallReturns`, `GivenBefore`, `BeginLines`, `LinesBefore`) | The steps where the calls take place form an endless execution of `Model/Sender` (simulation, step by step); it inherits fairness because whoever has the lock releases it; then C82, C100 and C98. | partial: C104_send_returns and C104_end_returns (calls return; a message whose own marshaler never returns is excluded); C104_delivered_partial (RFC 5425), C104_lines_partial (LF, NUL): messages are received; C104_logged_partial, C104_logged_lines_partial: log lines. Missing: a write that fails in the middle of a frame, see C100_midframe_violated, and calls of Send that go on after End, see C82_starved_violated. |
| C105 From many goroutines that log to many goroutines that receive, over reconnections | `Model/Calls`, `Model/SyslogShared`, `Model/ReceiveCalls`; Spec/SendCalls, Spec/ReceiveCalls | Composition of C104 (what was logged is received, on the steps where Receive takes place) with C102 (every message handed over is returned by a call, to one goroutine). | partial: C105_logged_partial (RFC 5425), C105_lines_partial (LF, NUL). Missing: a write that fails in the middle of a frame, see C100_midframe_violated. |
| C106 A program that forwards what it receives | `Model/Message`, `Model/Sender`, `Model/Receiver`, `Model/SData`; Spec/Relay | IsReceived determines what Writable gives; the time truncated to microseconds has the same text, so the bytes are the same; composition of the delivery theorems of the two hops through the list that Receive returned. | partial: C106_hop_partial (one program), C106_chain_partial (any number), C106_unregistered and C106_package_partial (which registered identifiers are harmless), C106_in_order_partial, C106_complete_partial, C106_eventually_partial (two senders and two receivers). Missing: messages that do not travel over both transports (C53, C72), identifiers that do not reproduce what they read: C106_timequality_violated shows that a program which imports timequality panics or sends something unreadable for some messages that it has received. C106_reproduces_iff, C106_same_bytes_iff: with timequality imported, exactly which messages keep their bytes. |
| C107 Forwarding whatever was received | `Model/Parse`, `Model/Message`, `Model/Time`, `Model/Tokenizer`, `Model/Sender`, `Model/Receiver`; Spec/Forward | every accessor of a parsed message gives valid fields, a valid time (TimeReads), well formed elements (unknownFound_sound) and a text whose brackets were escaped (Layout); every message the tokenizer delivers was returned by Parse (induction over reads); then C106 and the delivery theorem. | partial: C107_intact_iff (exact condition), C107_forwarded_partial (one message), C107_size, C107_relay_partial (two receivers and a sender). Missing, because false: priorities above 299 (C107_priority_violated), offsets of 25 hours (C107_offset_violated), texts next to structured data that begin or end with a bracket (C107_text_violated, C107_line_violated). Without registered identifiers; for registered ones see C106. |
| C108 A receiver with any listener | `Model/UserListener` on top of `Model/Receiver`; Spec/UserListener | simulation: every event of a listener of the user is replaced by events of the plain receiver (a connection with an error by a connection and, elsewhere, an error); induction over the history; C44 then applies. | partial: C108_same_partial, C108_order_partial: as long as the program has not crashed. C108_both: a connection that comes with an error. C108_crashes is the complete list of what can crash it. Missing, because false: Accept that returns neither a connection nor an error (C108_neither_violated), Read that returns more than it has room for (C108_over_violated). C108_conversely: every history of the receiver with the library's own listeners is also a history of the receiver whose listener is the user's (nothing is lost by the generalisation). |
| C109 A sender with any Write | `Model/AnyWriter` on top of `Model/Sender`; Spec/AnyWriter | simulation: a short write of the last frame is an ENOBUFS after which the goroutine takes the lock again; counting invariant over all histories; violations by concrete histories and an induction for the endless one. | partial: C109_exactly_once_partial, C109_same_partial: if a short write without an error happens only for the last frame of the queue, everything is as with writers that keep the contract of io.Writer (all theorems about histories of the sender apply). C109_counts: the number of bytes is right for every writer that does not report too many. Missing, because false: a short write before other frames scrambles the stream silently (C109_scrambled_violated), a writer that accepts nothing is called for ever under the lock (C109_spin_violated), a writer that reports too many with an error loses the next message (C109_lost_violated). |
| C110 Every message sent to a datagram socket is eventually received | `Model/Sender`, `Model/Datagram`, `Model/Receiver`; Spec/GramFair (GramLink), Spec/Fair | C82 (everything is written) with C37_datagram (every write is a frame), the socket, C74 (every datagram is decoded) and C83 (everything decoded is received); the moments of finitely many senders are combined by induction. | partial: C110_delivered_partial: for messages of at most 500 bytes with the framing (with the LF and NUL transports with a text without the terminator), while nothing crashes and End is not called. Missing, because false: longer messages, with which the loop of the receiver can stop (C74_stall_violated). |
| C111 A call that panics and is recovered has no effect | `Model/Recovered` (Sender.pstep: the steps of a caller that panics), Spec/Recovered | A simulation: every history with panicking calls is one without them plus stutters; for an Encode that panics under the lock an invariant: the lock stays taken for ever. | partial: C111_no_effect_partial, C111_written_partial: for the transports of the package, whose Encode never panics (the panics are those of Marshal5424, before the lock is taken, and of a second End). Missing, because false: a transport of a user, or none, whose Encode panics while Send holds the lock - C111_encode_violated: the lock is never released, nothing is ever queued or written again, no Send returns and End never completes if something waits. |
| C112 A message is written after at most two ticks, and one more per failure | `Model/Sender`, `Model/Calls`; Spec/Latency | Invariant: everything accepted before is written, or there were at most as many ticks as failures, or one more and a flush goes on that has not failed; with C34, and C92 for the calls of several goroutines. | proved: C112_ticks, C112_one_flush: counted in ticks; C112_time: in time, for histories where every event has a time; C112_calls: for calls of Send by several goroutines. A write that fails with ENOBUFS counts as a failure. That ticks are received is a hypothesis: a sender that nobody reads errors from stops (C38_connect_errors_violated). |
| C113 From many goroutines of many programs, over a datagram socket, to many goroutines that receive | `Model/Calls`, `Model/Syslog`, `Model/ReceiveCalls`, `Model/Datagram`; Spec/GramLogged | C110 applied to the executions with atomic calls (C92, C104), then each message is given back to its goroutine, then to its log line (C70), and to the goroutine that received it (C102). | partial: C113_delivered_partial: for messages given to Send; C113_logged_partial: for log lines. End is not called; the schedulers are fair; a Write is one datagram or accepts nothing. Missing: lines of more than 500 bytes, see C74_stall_violated. |
| C114 Once End has returned, the program can exit | `Model/Calls`, `Model/Sender`, `Model/ReceiveCalls`, `Model/Datagram`; Spec/Exit | The goroutine that calls End is followed from its call to its return, so that the return finds the flush complete (C35) for everything taken before (C92); then the wire is received as in C100 and C113. | partial: C114_delivered_partial, C114_lines_partial: messages over streams; C114_logged_partial, C114_logged_lines_partial: log lines over streams; C114_gram_mixed_partial: many programs over a datagram socket, of which some exit and the others go on for ever; C114_gram_partial, C114_gram_logged_partial: many programs, one datagram socket. No fairness of the sender is assumed: End has returned. Missing: writes that fail in the middle of a frame (C100_midframe_violated), datagrams of more than 500 bytes (C74_stall_violated). |
| C115 A log server receives from many programs what they sent | `Model/Calls`, `Model/Sender`, `Model/ReceiveCalls`, `Model/Recv`; Spec/Server | Each program is followed as in C105 or C114; what has been received stays received (`delivered_over_stays`), so that one moment serves for all programs; nothing else is received because on every connection what the tokenizer has found is a prefix of the frames of that connection, and the connections of one program carry consecutive parts of what it sent. | partial: C115_delivered_partial: messages, the three transports; C115_only_partial: nothing else, at every moment; C115_origin_partial: the program a message came from; C115_logged_partial, C115_logged_origin_partial: log lines. Missing: writes that fail in the middle of a frame (C100_midframe_violated). |
| C116 A line stream resynchronises at the next terminator | `Model/Sender`, `Model/Recv`, `Model/Tokenizer`; Spec/Lines, Spec/EndToEnd | The reference decoder of C89 takes consecutive stretches that each end at a terminator (`Chain`), the terminator is only at the ends of frames, so the first stretch ends at a frame end, and from a frame end on the decoder takes exactly the next frame (`ready_line`). The bound on the first stretch counts spaces: a text begins at the latest behind the seventh space, a whole frame has at least seven. | partial: C116_resync_partial: at every moment the first pair is the rest of the cut frame with j whole frames behind it, all pairs after it are the messages behind these; j is at most one as long as no closing bracket arrives; what has arrived whole has been delivered when nothing waits. C116_eventually_partial, C116_words_eventually: in fair executions, eventually. C116_first_exactly: whether anything is received from the connection at all, exactly (without closing brackets): iff the bytes begin with seven words. So the claim is violated e.g. after a cut before a space: nothing is ever received (C116_stuck_violated). |
| C117 Each write that fails inside a frame costs at most two messages | `Model/Sender`, `Model/Recv`, `Model/Tokenizer`; Spec/CutCost, Spec/Resync, Spec/EndToEnd | The bytes of the frames are laid on the connections in order (C34), so each connection begins at a place in the concatenation of the frames: between two frames (C52, its messages are received) or inside one (C116, all but at most the first behind it). A frame that no connection begins inside lies on one connection. The count: each cut frame belongs to the connection that begins inside it. For log lines: the message of a line without closing brackets has none (sanitising, the timestamp and the numbers add none). | proved: C117_two_per_cut, all connections of a sender together, with the count of the missing messages. The condition on seven words is exact: without it nothing is received from the connection (C116_first_exactly). With the RFC 5425 transport the claim is false: a cut frame can end the reading of the connection (C53_cut_violated). C117_logged: the same for the lines of a program that logs, without closing brackets and structured data. |
| C118 Several loggers can share one sender: every line arrives with the name and the facility of its logger | `Model/Syslog`, `Model/Calls`, `Model/Tokenizer`, `Model/Receiver`; Spec/Loggers | A Syslog made by New and SubSyslog has the facility, host, pid and the joined name as an invariant, and its table is the one that Channel builds, so Channel returns it unchanged and a line on it says what it should. With that, linearizability of Send and End (C92), the relabelling of C98 and end to end delivery (C53, C72). Liveness from C104, the log server from C115. | partial: Proved at every moment on the first connection (C118_received_partial) and for the whole over all connections of a sender whose failing writes had accepted nothing (C118_complete_partial), for lines that the transport carries; and for programs that log for ever in every fair execution (C118_eventually_partial: each line is received). C118_server_partial, C118_origin_partial: many such programs and one log server with several goroutines that receive; some go on for ever, some exit; C118_gram_partial: the same over a datagram socket. Channel must have been called on each object that New returned before the goroutines start (otherwise C57_race_violated); not on what SubSyslog returned (C118_sub_ready). The name given to SubSyslog is not sanitised: if it makes the application name invalid and the line has no AppName, the fields move (C118_sub_violated); without SubSyslog nothing is asked (C118_without_sub). TestMode is not used. |

Every property of the list is expressed in the model; none is left out.

## Appendix: the axioms each theorem depends on

* none: C06_localhost_violated, C07_same_text, C18_negative_header_violated, C18_lenient_header, C31_devnull, C67_no_effect_violated
* propext: C06_sd_added, C08_bad_key, C09_no_text_violated, C10_short_element_violated, C13_truncated_violated, C13_separator_violated, C20_encoded_form, C20_unescape, C21_nil_map, C24_short_element_violated, C26_unknown, C27_root_error, C27_root_violated, C27_panics_violated, C27_array_error_violated, C31_msgid_violated, C44_progress, C45_datagram_double_close_violated, C48_unknown, C48_options, C55_result_partial, C55_replaced_partial, C55_reported_partial, C55_destroys_violated, C55_endless_violated, C56_race_violated, C63_room_partial, C65_overflow_violated, C67_round_trip_violated, C68_enterprise, C76_datagrams, C108_conversely, C108_neither_violated, C108_over_violated
* propext, Classical.choice, Quot.sound: C01_marshal_format, C01_round_trip, C03_ranges, C03_split, C03_combine, C04_string_named, C04_string_unnamed_violated, C04_string_safe_partial, C04_string_rfc_partial, C05_create_valid, C05_setter_valid, C05_idempotent, C05_pointwise, C05_create_pointwise, C06_exact_iff, C06_setter_sequences, C06_with_localhost_partial, C06_last_wins, C07_text_trimmed, C07_idempotent, C07_prefix, C08_grammar, C08_created, C09_nil_transport_partial, C09_nil_accepts, C09_never_hangs, C09_terminated_panics_exactly_partial, C09_rfc5425_panics_exactly_partial, C10_accessors, C10_structuredData_partial, C10_zero_violated, C11_round_trip_partial, C12_text_survives_iff_partial, C13_nil_lossless, C13_terminated_lossless, C13_rfc5425_lossless_partial, C13_dash_separator, C14_identity_partial, C14_identity_unregistered_partial, C14_identity_timequality_partial, C14_timequality_iff, C15_exact_iff, C15_format, C15_round_trip_partial, C17_incomplete_waits, C18_frame_in_buffer_partial, C18_panics_exactly_partial, C19_rfc5425_one_frame, C19_rfc5425_any_text, C19_terminated_partial, C19_terminated_received_partial, C19_terminator_violated, C21_order_independent, C21_increasing, C21_exact, C22_encode_decode_partial, C22_decode_encode, C22_decode_encode_exact, C22_decodes_iff, C22_total, C22_no_params_violated, C23_error_iff, C23_panics_exactly_partial, C23_decoder_valid, C23_round_trip_partial, C23_decoder_reads, C24_never_panics_partial, C24_panics_exactly_partial, C26_first_wins, C26_register_adds, C26_no_duplicates, C26_order_independent, C27_struct_partial, C27_errors_partial, C27_mandatory_violated, C27_exact, C28_original_partial, C28_extended_once_partial, C28_no_room_partial, C29_filter, C30_priority, C31_derive_partial, C31_reach, C32_exact_iff, C32_valid_partial, C32_without_sub, C33_write, C33_log, C33_logger, C38_lock_bound_partial, C40_returned, C40_crashes_exactly, C40_reassembly_partial, C40_all_delivered_partial, C40_short_frames_partial, C40_short_frame_violated, C41_segmentation_violated, C41_reassembly_partial, C41_cut_after_dash_violated, C41_crashes_exactly, C41_no_text_violated, C41_structured_data_violated, C42_room_partial, C42_progress_partial, C42_stall_violated, C42_stuck_exactly, C42_room_lines_partial, C43_immutable, C44_order, C44_nothing_else, C44_realised, C46_reported_partial, C51_panics_iff, C51_no_address_violated, C52_format_parse, C52_timestamp_of_frame, C52_round_trip, C52_other_years, C53_cut_violated, C53_in_order_partial, C53_complete_partial, C53_end_partial, C53_reconnect_partial, C53_all_connections_partial, C53_receive_partial, C53_writev_partial, C54_reads_partial, C54_recent, C54_unreadable, C54_leap_violated, C54_ahead_violated, C54_exact, C56_blocks_partial, C57_safe_partial, C57_after_first_partial, C61_bad_payload_partial, C61_poisoned_violated, C61_lines_silent_violated, C61_merged_violated, C62_terminates, C62_panics_only_partial, C62_remote_crash_violated, C64_epoch, C64_numbers, C65_delta_partial, C65_exact_iff, C66_terminated_violated, C66_rfc5425_violated, C66_frames_before_partial, C68_identifier_partial, C68_string_violated, C68_key, C69_parameters_violated, C69_registered, C72_cut_violated, C72_cut_not_sent_violated, C72_in_order_partial, C72_complete_partial, C72_end_partial, C72_reconnect_partial, C72_all_connections_partial, C72_crash_violated, C72_writev_partial, C73_crash_violated, C73_sent, C73_received_partial, C73_complete_partial, C73_lines_received_partial, C73_all_connections_partial, C73_lines_all_connections_partial, C74_each_datagram_partial, C74_received_partial, C74_any_size_partial, C74_any_size_lines_partial, C74_stall_violated, C75_only_after_end, C76_same, C76_exactly_once, C76_end_flushes, C76_flush, C76_first, C76_reported, C77_one_by_one, C77_real_time, C77_program_order, C77_first_wins, C77_returns_partial, C77_lock_free, C77_reentrant_violated, C77_package, C78_injective, C78_received, C78_arrives_partial, C78_names, C78_forged_violated, C78_tag_violated, C79_cut_from_wire, C79_receive, C80_no_number, C80_decodes, C80_crashes_exactly, C80_segmentation, C80_receive, C81_nil_exactly, C81_no_message, C81_total, C81_unique, C81_position, C81_rfc5425_exactly, C81_terminated_exactly, C81_received, C82_written, C82_end_returns, C82_send_returns, C83_received, C83_frames, C83_reads_on, C84_delivered, C84_lines, C84_end, C85_accepts, C85_ends, C86_parse, C86_fault_violated, C86_reassembly, C86_end_to_end, C86_needs_progress, C86_rfc5425, C87_quiet_end_partial, C88_backpressure, C88_unread, C89_functional, C89_decodes, C89_crashes_exactly, C89_same_reads, C89_receive, C89_without_brackets, C89_segmentation, C90_any_time, C90_package, C90_no_overlap, C90_structured_data_partial, C90_structured_data_text_partial, C90_structured_data_violated, C91_kept_violated, C92_order, C92_end, C93_explained, C93_exact, C93_realised, C93_order, C93_doomed, C93_doomed_crash, C94_parse_printable, C94_parse_one_line, C94_shows_nil, C94_shows_terminated, C94_shows_rfc5425, C94_tells_apart, C94_tokens_printable, C94_name_error, C94_header_error, C94_raw_violated, C95_valid, C95_invalid_unmarshal_partial, C95_short_texts_violated, C95_invalid_marshal, C95_generic_errors_violated, C95_custom, C95_generic_valid_violated, C95_generic_struct, C96_element_partial, C96_exact, C96_message_partial, C96_tag_violated, C96_key_violated, C96_identifier_violated, C96_twice_violated, C97_timestamp, C97_received, C97_lenient_violated, C98_received_partial, C98_lines_received_partial, C98_complete_partial, C98_lines_complete_partial, C98_all_connections_partial, C98_lines_all_connections_partial, C99_package_partial, C99_itself, C99_content, C99_sent_partial, C99_short_violated, C100_delivered_partial, C100_lines_partial, C100_connection_partial, C100_connection_lines_partial, C101_logged_partial, C101_lines_partial, C102_connection, C102_one_worker, C102_returned, C102_delivered, C102_lines, C103_shared_partial, C103_no_race_partial, C103_first_partial, C103_channel, C103_sub_partial, C103_no_panic, C104_send_returns, C104_end_returns, C104_delivered_partial, C104_lines_partial, C104_logged_partial, C104_logged_lines_partial, C105_logged_partial, C105_lines_partial, C106_hop_partial, C106_chain_partial, C106_unregistered, C106_package_partial, C106_in_order_partial, C106_complete_partial, C106_eventually_partial, C106_timequality_violated, C106_same_bytes_iff, C106_reproduces_iff, C107_intact_iff, C107_forwarded_partial, C107_size, C107_relay_partial, C108_same_partial, C108_order_partial, C109_same_partial, C109_exactly_once_partial, C109_spin_violated, C110_delivered_partial, C111_written_partial, C112_one_flush, C112_time, C112_calls, C113_delivered_partial, C113_logged_partial, C114_delivered_partial, C114_lines_partial, C114_logged_partial, C114_logged_lines_partial, C114_gram_partial, C114_gram_logged_partial, C114_gram_mixed_partial, C115_delivered_partial, C115_only_partial, C115_origin_partial, C115_logged_partial, C115_logged_origin_partial, C116_resync_partial, C116_stuck_violated, C116_eventually_partial, C116_first_exactly, C116_words_eventually, C117_two_per_cut, C117_logged, C118_received_partial, C118_complete_partial, C118_without_sub, C118_sub_ready, C118_sub_violated, C118_eventually_partial, C118_gram_partial, C118_server_partial, C118_origin_partial
* propext, Quot.sound: C02_decoder_grammar, C02_decoder_error, C04_set_accepts, C04_set_error, C04_string_set, C04_string_violated, C05_valid_kept, C05_create_kept, C11_no_params_violated, C12_text_violated, C14_timequality_violated, C15_short_frame_violated, C16_round_trip, C16_cut, C16_format, C19_forged_violated, C20_marshal_map, C20_tokenizer, C20_tokenizer_sound, C20_injective, C20_empty_key_raw, C23_zero_accuracy_violated, C23_remote_violated, C24_generic_partial, C25_empty, C25_concat, C25_ok_iff, C25_error, C25_message_error, C25_message_ok, C25_message_string, C25_list_string, C25_not_caught, C27_exact_unique, C28_sibling_violated, C29_new, C32_sub_violated, C34_exactly_once, C34_prefix, C34_monotone, C35_end_flushes, C36_causes_partial, C36_no_failure_partial, C36_end_violated, C37_boundary_partial, C37_goes_on, C37_first_partial, C37_datagram_partial, C37_reconnect_violated, C38_write_errors_violated, C38_connect_errors_violated, C38_lock_progress_partial, C38_end_returns_partial, C39_flush, C39_progress, C39_after_end, C39_lost_violated, C44_queue_bound, C45_datagram_violated, C45_datagram_early_partial, C45_end_violated, C45_doomed_violated, C45_accept_blocks_violated, C45_one_accept_partial, C45_causes_partial, C46_datagram_close_violated, C46_accept_error_violated, C47_exact, C47_exact_iff, C47_in_order_partial, C47_progress, C47_truncated_violated, C48_networks, C48_destination, C48_default, C49_guess, C49_tcp, C50_search, C50_address, C50_remembered, C51_connect_partial, C52_seconds_offset, C56_once_partial, C56_uninterrupted, C56_double_close_violated, C57_race_violated, C58_leak_violated, C58_closed_partial, C59_reported, C59_after_end, C60_eof_ends, C60_read_error_violated, C63_unread_errors_violated, C63_one_connection_violated, C67_invalid_target_partial, C68_unknown_violated, C68_pointer, C69_reencode_violated, C70_closed_violated, C70_open_partial, C70_next_sender_violated, C71_dial_violated, C71_end_violated, C71_crash_violated, C71_reported_partial, C75_no_automatic_flush, C76_converse, C78_key_violated, C80_functional, C82_starved_violated, C85_stuck_violated, C86_builtin_parse, C86_builtin_run, C86_builtin_sender, C86_sender, C86_stuffing, C87_only_after_end, C87_no_end_partial, C87_concurrent_end_violated, C88_queues, C88_sender_violated, C91_exactly_once, C91_reported, C91_same, C91_used_violated, C91_crash_violated, C92_linearizable, C92_result, C92_lock, C92_complete, C94_unambiguous, C94_tokens_agree, C94_space_error, C94_value_error, C94_raw_texts, C95_parse_errors_violated, C97_rfc, C98_race_violated, C99_registered, C100_clean, C100_midframe_violated, C102_shared, C102_atomic, C102_complete, C102_all, C102_ended, C103_first_violated, C103_testMode_violated, C107_priority_violated, C107_offset_violated, C107_text_violated, C107_line_violated, C108_both, C108_crashes, C109_counts, C109_scrambled_violated, C109_lost_violated, C111_no_effect_partial, C111_encode_violated, C112_ticks
