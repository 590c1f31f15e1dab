{
"C01": [
"Priority",
"arithmetic, all integers"
],
"C02": [
"Priority",
"grammar of PRI, both directions"
],
"C03": [
"Priority",
"bit masks as arithmetic"
],
"C04": [
"Priority",
"string tables by case analysis, lifted to all integers"
],
"C05": [
"Helpers",
"list induction"
],
"C06": [
"Message",
"invariant over sequences of setters"
],
"C07": [
"Helpers",
"list induction against a specification of white space"
],
"C08": [
"Message, SDEncoder; Spec/Rfc5424",
"structural, against the grammar"
],
"C09": [
"Parse, Transport",
"case analysis of every exit; exact panic conditions"
],
"C10": [
"Parse",
"invariant on the five indexes"
],
"C11": [
"Message, Parse, SData",
"scanning lemmas by induction on parameters and bytes"
],
"C12": [
"Parse",
"exact condition on the text"
],
"C13": [
"Parse, Transport",
"index invariant"
],
"C14": [
"Parse, Message",
"composition of decode and encode lemmas"
],
"C15": [
"Transport",
"decimal lemmas"
],
"C16": [
"Transport",
"first occurrence of the terminator"
],
"C17": [
"Transport",
"decimal lemmas"
],
"C18": [
"Transport",
"case analysis with 64-bit wrap-around"
],
"C19": [
"Transport, Parse",
"C11, C15, C16; forged messages as theorems"
],
"C20": [
"SDEncoder, Tokens",
"induction on the value"
],
"C21": [
"SDEncoder",
"sorting is independent of the order; C21_exact: every value, item by item"
],
"C22": [
"SData",
"induction on parameters"
],
"C23": [
"SData",
"case analysis; exact panic condition"
],
"C24": [
"SData",
"fuel bound, exact panic condition"
],
"C25": [
"SData",
"list induction"
],
"C26": [
"SData",
"list induction, permutation"
],
"C27": [
"SDEncoder",
"induction on types and values; C27_exact: the result is that of the items of the specification (Spec/EncoderExact), for every value"
],
"C28": [
"Alias: arrays, lengths, capacities, any growth policy",
"invariant over derivations"
],
"C29": [
"Syslog",
"invariant over call histories"
],
"C30": [
"Syslog",
"invariant over call histories"
],
"C31": [
"Syslog",
"case analysis, reachability"
],
"C32": [
"Syslog",
"invariant over call histories"
],
"C33": [
"Syslog",
"case analysis"
],
"C34": [
"Sender",
"invariant: written ++ queued = accepted"
],
"C35": [
"Sender",
"invariant"
],
"C36": [
"Sender",
"complete list of crash causes"
],
"C37": [
"Sender",
"invariant on the position in the queue"
],
"C38": [
"Sender",
"measures, stuck states"
],
"C39": [
"Sender",
"invariant, measure"
],
"C40": [
"Tokenizer, Transport",
"induction over reads with a flow invariant"
],
"C41": [
"Tokenizer, Parse",
"same"
],
"C42": [
"Tokenizer",
"memory invariant"
],
"C43": [
"Tokenizer",
"memory regions are disjoint"
],
"C44": [
"Receiver",
"invariant over interleavings"
],
"C45": [
"Receiver, Datagram",
"complete list of crash causes"
],
"C46": [
"Receiver, Datagram",
"invariant"
],
"C47": [
"Net",
"induction over reads"
],
"C48": [
"Net",
"case analysis"
],
"C49": [
"Net",
"case analysis"
],
"C50": [
"Net",
"induction over candidates"
],
"C51": [
"Net",
"induction over addresses"
],
"C52": [
"Time, Parse",
"digit lemmas"
],
"C53": [
"Sender, Tokenizer, Receiver, Message, Parse",
"composition of C34, C40, C44, C11"
],
"C54": [
"Clock",
"grammar of stamps, calendar arithmetic"
],
"C55": [
"Net, file system as a parameter",
"induction on the loop"
],
"C56": [
"Net, Datagram",
"invariant; race witness"
],
"C57": [
"Syslog, concurrent",
"invariant; race witness"
],
"C58": [
"Sender",
"invariant"
],
"C59": [
"Sender",
"invariant: failures = received ++ queued ++ pending"
],
"C60": [
"Tokenizer",
"case analysis of a pass"
],
"C61": [
"Tokenizer",
"flow invariant with bad payloads"
],
"C62": [
"Tokenizer, Parse",
"exact panic conditions"
],
"C63": [
"Receiver",
"stuck states"
],
"C64": [
"Clock",
"Gregorian calendar by division"
],
"C65": [
"Clock",
"64-bit arithmetic"
],
"C66": [
"Tokenizer, Transport",
"flow invariant"
],
"C67": [
"Meta",
"case analysis"
],
"C68": [
"Meta, SDEncoder",
"induction on types"
],
"C69": [
"SData, Meta",
"case analysis"
],
"C70": [
"Sender, Dialed",
"invariant"
],
"C71": [
"Sender, Dialed",
"invariant"
],
"C72": [
"Sender, Tokenizer, Receiver, Message, Parse",
"composition of C34, C41 (with the exact characterisation of its crashes), C44, C12"
],
"C73": [
"Syslog, Message, Sender, Tokenizer, Receiver, Parse",
"invariant: the Syslog is as New made it, up to its table; composition with C53"
],
"C74": [
"Datagram.gramLoop (Net.fakeRead + Tok.step), Receiver, Sender, Parse",
"induction over the iterations (invariant: nothing pending, 500 bytes of room); merge of the senders; composition with C37, C44"
],
"C75": [
"Net.dial, Dialed.can, Sender",
"induction over the history: the goroutine stays in its select"
],
"C76": [
"Writev.stepV, Sender.step, Net.Local.connect",
"simulation: a writev is a sequence of writes that ends in the same state but for the grouping; C34, C35, C37, C39, C59 transfer"
],
"C77": [
"Registry.step, Registry.run",
"invariant: only the holder of the lock looks at the map, and its position in the loop says which SDIDs refused; the log of returned calls is a sequential execution. Progress by a measure; the deadlock by an invariant over all continuations"
],
"C78": [
"SDEncoder, SData, Meta, Parse; Spec/Content.lean (Holds, Named, texts)",
"exactness of the encoder (C21_exact, C27_exact), injectivity of the element text by splitting at the first byte that is not a name byte, soundness of the unknown decoder for the converse"
],
"C79": [
"`Tok.step` (memory and all), `parse` with its three transports, `Recv.step`",
"Invariant over runs: one call of `Parse` that leaves a rest cuts exactly one frame (case analysis of `Parse` on arbitrary bytes), the decoding loop by induction on its iterations, one read by the buffer arithmetic of `step`, all reads by induction on the run; the receiver by C44."
],
"C80": [
"`Tok.step` over arbitrary bytes with the RFC 5425 transport; `Recv.step`",
"`Parse` is characterised exactly on every buffer (crash, frame taken, no frame), then refinement of the decoding loop to the relation `Decodes`/`CrashesOn` by induction on its iterations, and of a run by induction on the reads, using that frames stay frames when bytes are appended; determinism of the reference by induction."
],
"C81": [
"`parse` (all of message-immutable.go:Parse), `Transport.prefixStrip`, `Tok.step`",
"The errors of the header loop by induction on the fields already read; those of the structured data loop by an invariant (what was skipped is `Closed` and ends with a bracket); exclusivity of the cases by uniqueness of the first stray bracket; the transports by the exact cases of PrefixStrip; receivers through C80_decodes."
],
"C82": [
"`Sender.step` (connector.go:runQueue, flushQueue, Send, End), infinite executions of it",
"A rank lemma (`eventually`): a rank that no event increases and every step of the goroutine decreases reaches the goal under weak fairness. Ranks: distance to the next flush, to the end of the flush, to the release of the lock, to the select, to the end of the deferred function. Enabledness from the invariant of C34. Then C34_exactly_once at the end of the flush."
],
"C83": [
"`Recv.step` (listener.go:runQueue, tokenize, Receive), infinite executions of it",
"The queue is FIFO (`step_fifo`), so what waits in it is received by the rank of what is missing; a connection gets to the queue because room appears again and again (strong fairness), with rank 2 * pairs left + error left; C44_order identifies what is decoded, C80_decodes what it is."
],
"C84": [
"`Sender.step`, `Recv.step`, `Link` between their executions",
"Composition of C82, C83 and the lemmas behind C53/C72; the invariant that without a failing write there is one connection at most."
],
"C85": [
"`Recv.step` (listener.go:runQueue, End, Receive), infinite executions of it",
"Rank of the accepting goroutine's program counter under strong fairness (`Accepting`); nothing enters a closed queue; FIFO of C83."
],
"C86": [
"`UserTransport`: the interface left open in `Parse`, the tokenizer and `Send`",
"The reassembly argument of C40 and the invariant of C34 with the transport as a parameter; `parseReturn` does not use the transport when there is a rest."
],
"C87": [
"`Race`: the accesses and the synchronisation of every event of `Sender`",
"Happens-before as an inductive relation over the operations of a history; the holder of the lock acquired it and has not released it, by induction on the history."
],
"C88": [
"`Recv` and `Tok`",
"An invariant that accounts for every byte read: returned, queued, decoded from the last read, or waiting; everything from one read fits in the buffer."
],
"C89": [
"`Tok` with `Parse` and `SuffixStrip`",
"Induction on the decoding loop and on the reads, against the inductive reference decoder; uniqueness from the determinism of `Parse`."
],
"C90": [
"`Tok` with the places each call reads and each `Read` writes (`Model/Footprint`)",
"Memory invariant of the tokenizer (`Held`): what lies behind a delivered message keeps its length, and the accessors depend on nothing else; the places come from the invariant and from a bound of the indexes."
],
"C91": [
"`Sender` extended with the two other results of `Connect` and with a panic that runs the deferred function (`Model/UserConn`)",
"Invariant over all histories, as for C34 and C59, without the fact that the connection is there; the violations by an invariant from the strange result on, and by concrete histories."
],
"C92": [
"`Model/Calls`: every call of `Send` and `End` is a sequence of steps of its goroutine, with the lock",
"Simulation of `Sender.step` with explicit linearization points (the `append`, the failed `Marshal5424`, the `close`); invariant relating the place of every goroutine to its calls; then C34 and C35."
],
"C93": [
"`Model/Stepwise`: the loop of `tokenize` message by message, with the pair being sent",
"Simulation in both directions with `Model/Receiver`; a connection that will panic is matched by one that did not see its last bytes until the crash."
],
"C94": [
"`Model/ErrorText`: `strconv.Quote` with UTF-8 decoding, `ParseError.Error`, the texts of errors.go, priority.go, dialer.go and sdata/tokens.go",
"Each rune or invalid byte is written as one piece of a Go literal, and each piece is printable; the pieces are prefix free, so that a literal stands for one string and shows where it ends."
],
"C95": [
"`Model/TestKit`: `DoTest` of the test makers of sdata/exported-testing.go, `reflect.DeepEqual` on the known types, the identity of errors",
"The exact characterisations of the timeQuality decoder and encoder (C23), uniqueness of decimal notation; induction over Go types for the freshness of the encoder's errors."
],
"C96": [
"`Model/SDEncoder` with the runes of `Model/Utf8`; Spec/Rfc5424, Spec/Tag",
"The exact encoder (C27_exact, C21_exact), unambiguity of element texts, C08_grammar; UTF-8 decoding is the inverse of encoding for every scalar value."
],
"C97": [
"`Model/Time` (time.Parse with the package's layout), `Model/Parse`; Spec/TimeRead",
"time.Parse step by step is equivalent to a grammar with values; the field of a received message from the view of Parse."
],
"C98": [
"`Model/Syslog`, `Model/Calls`, `Model/Tokenizer`, `Model/Receiver`; Spec/LoggingMany",
"C73's meaning of a line, linearizability of Send and End (C92), end to end delivery (C53, C72); the linear order of the messages is relabelled with the lines of the goroutines."
],
"C99": [
"`Model/SData`, `Model/Parse`; Spec/Receive (`ReadAs`), Spec/Registered",
"What Parse, the tokenizer and the receiver deliver is characterised for every registry (`Conveys`, `IsReceived`); exact characterisations of the three decoders (C22, C23, C24)."
],
"C100": [
"`Model/Sender`, `Model/Receiver`; Spec/Reconnect (`Links`, `receivedOver`), Spec/Fair",
"Earlier connections are never written to again (`Grows`), so what arrives on each of them is final; C82 (everything is written), C73 (each connection carries whole frames), C83 (everything that arrives is delivered)."
],
"C101": [
"`Model/Syslog`, `Model/Sender`, `Model/Receiver`; Spec/Logging (`Says`), Spec/Reconnect (`LoggedBy`)",
"C73 (the messages that lines send, `logged_says`) composed with C100 (eventual delivery over reconnections)."
],
"C102": [
"`Model/ReceiveCalls`: calls of `Receive` and `End` by goroutines, step by step; Spec/ReceiveCalls (`Shares`, `Worker`, `Returns`)",
"Invariant: which goroutine holds which message; a closed and empty pipeline stays so. Fairness: the next own step of a goroutine (`next_own`), then C84."
],
"C103": [
"`Model/SyslogShared`: Channel, SubSyslog, TestMode, Log and assignments of Now, one step per access to a location that changes; Spec/SyslogRace (`Before`, `DataRace`, `Careful`, `ReadyToShare`)",
"Every access belongs to a call (induction on the execution); which calls can conflict (cases); a call made when the table is there does not build it."
],
"C104": [
"`Model/Calls`, `Model/Receiver`; Spec/SendCalls (`FExec`, `RunnerScheduled`, `Scheduled`, `CallReturns`, `GivenBefore`, `BeginLines`, `LinesBefore`)",
"The steps where the calls take place form an endless execution of `Model/Sender` (simulation, step by step); it inherits fairness because whoever has the lock releases it; then C82, C100 and C98."
],
"C105": [
"`Model/Calls`, `Model/SyslogShared`, `Model/ReceiveCalls`; Spec/SendCalls, Spec/ReceiveCalls",
"Composition of C104 (what was logged is received, on the steps where Receive takes place) with C102 (every message handed over is returned by a call, to one goroutine)."
],
"C106": [
"`Model/Message`, `Model/Sender`, `Model/Receiver`, `Model/SData`; Spec/Relay",
"IsReceived determines what Writable gives; the time truncated to microseconds has the same text, so the bytes are the same; composition of the delivery theorems of the two hops through the list that Receive returned."
],
"C107": [
"`Model/Parse`, `Model/Message`, `Model/Time`, `Model/Tokenizer`, `Model/Sender`, `Model/Receiver`; Spec/Forward",
"every accessor of a parsed message gives valid fields, a valid time (TimeReads), well formed elements (unknownFound_sound) and a text whose brackets were escaped (Layout); every message the tokenizer delivers was returned by Parse (induction over reads); then C106 and the delivery theorem."
],
"C108": [
"`Model/UserListener` on top of `Model/Receiver`; Spec/UserListener",
"simulation: every event of a listener of the user is replaced by events of the plain receiver (a connection with an error by a connection and, elsewhere, an error); induction over the history; C44 then applies."
],
"C109": [
"`Model/AnyWriter` on top of `Model/Sender`; Spec/AnyWriter",
"simulation: a short write of the last frame is an ENOBUFS after which the goroutine takes the lock again; counting invariant over all histories; violations by concrete histories and an induction for the endless one."
],
"C110": [
"`Model/Sender`, `Model/Datagram`, `Model/Receiver`; Spec/GramFair (GramLink), Spec/Fair",
"C82 (everything is written) with C37_datagram (every write is a frame), the socket, C74 (every datagram is decoded) and C83 (everything decoded is received); the moments of finitely many senders are combined by induction."
],
"C111": [
"`Model/Recovered` (Sender.pstep: the steps of a caller that panics), Spec/Recovered",
"A simulation: every history with panicking calls is one without them plus stutters; for an Encode that panics under the lock an invariant: the lock stays taken for ever."
],
"C112": [
"`Model/Sender`, `Model/Calls`; Spec/Latency",
"Invariant: everything accepted before is written, or there were at most as many ticks as failures, or one more and a flush goes on that has not failed; with C34, and C92 for the calls of several goroutines."
],
"C113": [
"`Model/Calls`, `Model/Syslog`, `Model/ReceiveCalls`, `Model/Datagram`; Spec/GramLogged",
"C110 applied to the executions with atomic calls (C92, C104), then each message is given back to its goroutine, then to its log line (C70), and to the goroutine that received it (C102)."
],
"C114": [
"`Model/Calls`, `Model/Sender`, `Model/ReceiveCalls`, `Model/Datagram`; Spec/Exit",
"The goroutine that calls End is followed from its call to its return, so that the return finds the flush complete (C35) for everything taken before (C92); then the wire is received as in C100 and C113."
],
"C115": [
"`Model/Calls`, `Model/Sender`, `Model/ReceiveCalls`, `Model/Recv`; Spec/Server",
"Each program is followed as in C105 or C114; what has been received stays received (`delivered_over_stays`), so that one moment serves for all programs; nothing else is received because on every connection what the tokenizer has found is a prefix of the frames of that connection, and the connections of one program carry consecutive parts of what it sent."
],
"C116": [
"`Model/Sender`, `Model/Recv`, `Model/Tokenizer`; Spec/Lines, Spec/EndToEnd",
"The reference decoder of C89 takes consecutive stretches that each end at a terminator (`Chain`), the terminator is only at the ends of frames, so the first stretch ends at a frame end, and from a frame end on the decoder takes exactly the next frame (`ready_line`). The bound on the first stretch counts spaces: a text begins at the latest behind the seventh space, a whole frame has at least seven."
],
"C117": [
"`Model/Sender`, `Model/Recv`, `Model/Tokenizer`; Spec/CutCost, Spec/Resync, Spec/EndToEnd",
"The bytes of the frames are laid on the connections in order (C34), so each connection begins at a place in the concatenation of the frames: between two frames (C52, its messages are received) or inside one (C116, all but at most the first behind it). A frame that no connection begins inside lies on one connection. The count: each cut frame belongs to the connection that begins inside it. For log lines: the message of a line without closing brackets has none (sanitising, the timestamp and the numbers add none)."
],
"C118": [
"`Model/Syslog`, `Model/Calls`, `Model/Tokenizer`, `Model/Receiver`; Spec/Loggers",
"A Syslog made by New and SubSyslog has the facility, host, pid and the joined name as an invariant, and its table is the one that Channel builds, so Channel returns it unchanged and a line on it says what it should. With that, linearizability of Send and End (C92), the relabelling of C98 and end to end delivery (C53, C72). Liveness from C104, the log server from C115."
]
}