#!/usr/bin/env python3
"""Regenerates /verif/properties.jsonl (one JSON object per line)."""
import json, os
P = []
def p(id, title, statement, quantifier, why, anchors):
    P.append(dict(id=id, title=title, statement=statement, quantifier=quantifier,
                  why_tests_cant=why, anchors=anchors))

p("C01", "Priority wire round trip",
  "Priority.Marshal5424 writes '<' + the decimal digits of the value + '>1', and Priority.Unmarshal5424 of those bytes gives the same value back, for every RFC 5424 priority (0..191); outside 0..299 the decoded value is never the encoded one.",
  "every int value of Priority", "the value domain of an int is not enumerable; the 256-value test does not cover the byte-truncation boundary at 300 nor negatives",
  ["priority.go:Priority.Marshal5424", "priority.go:Priority.Unmarshal5424"])
p("C02", "Priority decoder accepts exactly the PRI grammar",
  "Priority.Unmarshal5424 succeeds on a byte string if and only if it is '<', one to three ASCII digits, '>1', and then the priority is the decimal value of the digits; otherwise it returns an error and leaves the receiver unchanged.",
  "every byte string, of any length, and every previous value of the receiver", "the set of rejected strings is infinite",
  ["priority.go:Priority.Unmarshal5424"])
p("C03", "Facility and severity split a priority",
  "Facility() is a multiple of 8, Severity() is in 0..7, and for every priority in 0..255 Facility()|Severity() (equivalently their sum) is the priority.",
  "every int value of Priority (sign-extended two's complement)", "holds for all 2^64 values",
  ["priority.go:Priority.Facility", "priority.go:Priority.Severity"])
p("C04", "Priority flag syntax: Set and String agree",
  "Set accepts exactly the strings facility.severity built from the two documented name tables, sets the priority to facility|severity, leaves it unchanged on error, and String() of the result is the accepted string; String() never panics on a priority that Set or the wire decoder can produce.",
  "every string given to Set, every priority value", "infinite set of strings; String panics only for some facility codes a test has to guess",
  ["priority.go:Priority.Set", "priority.go:Priority.String"])
p("C05", "Header fields are sanitised",
  "Whatever string is given for a hostname, app-name, procid or msgid through CreateWholeMessage or the Host/AppName/ProcID/MsgID setters, the stored field has 1 to 255/48/128/32 bytes, all printable US-ASCII (33..126); a valid value is kept unchanged, sanitising twice changes nothing more, and byte i of the field depends only on byte i of the input.",
  "every byte string", "all strings of all lengths, including invalid UTF-8",
  ["helpers.go:validatorGeneric", "helpers.go:validHost", "helpers.go:validApp", "helpers.go:validProcid", "helpers.go:validMsgid"])
p("C06", "Messages built through the API always have valid header fields",
  "Starting from EmptyMessage or CreateWholeMessage, after any sequence of setter calls the message has valid, non-empty, printable, length-bounded hostname, app-name, procid and msgid, and a text without trailing white space. Every field is what the last setter of this field gave (sanitised or trimmed), or its first value; the structured data is all that was added, in order.",
  "every finite sequence of setter calls with every argument", "unbounded histories of builder calls",
  ["message.go:CreateMessage", "message.go:CreateWholeMessage", "message.go:EmptyMessage", "message.go:Message.LocalHost", "message.go:Message setters"])
p("C07", "The text is trimmed on the right only",
  "The text stored by CreateMessage, CreateWholeMessage, Msg, Channel.Write and Channel.Log is the given text with all trailing Unicode white space characters removed and nothing else; trimming again changes nothing.",
  "every byte string", "all strings, including multi-byte white space and invalid UTF-8",
  ["message.go:CreateWholeMessage", "message.go:Message.Msg", "message.go:forgeMessage"])
p("C08", "Marshalled messages obey the RFC 5424 grammar",
  "For every message with an RFC priority, valid header fields, a four digit year and structured data elements that follow the SD-ELEMENT grammar, Marshal5424 yields bytes in the RFC 5424 SYSLOG-MSG grammar, with exactly these field values.",
  "every such message", "all field contents of all lengths",
  ["message.go:Message.Marshal5424"])
p("C09", "Parse terminates and never panics",
  "Parse returns (a message or an error) on every input, with every transport and end-of-file flag, without panicking and without looping for ever.",
  "every byte string, the nil transport and the three built-in transports, both values of atEOF", "the input comes from the network; the crashing inputs are rare byte patterns",
  ["message-immutable.go:Parse", "message-immutable.go:parseReturn", "transport.go:tRFC5425.PrefixStrip"])
p("C10", "Accessors of a parsed message never panic and return the wire fields",
  "If Parse returned a message without error, Priority, TimeStamp, Hostname, AppName, ProcID, MsgID, StructuredData, Text, String and Writable do not panic, and the accessors return exactly the space-separated fields of the frame (sanitised).",
  "every byte string accepted by Parse", "all accepted inputs",
  ["message-immutable.go:MessageImmutable accessors", "message-immutable.go:Parse"])
p("C11", "Encode then parse gives the same message",
  "For every message with valid header fields and structured data elements in RFC form, parsing the marshalled bytes succeeds and gives back the priority, hostname, app-name, procid, msgid, the text and the bytes of every structured data element, in order.",
  "every message, with any number of structured data elements and parameters, any text", "unbounded sizes and contents, escapes",
  ["message.go:Message.Marshal5424", "message-immutable.go:Parse", "message-immutable.go:MessageImmutable.StructuredData"])
p("C12", "Any text survives next to structured data",
  "A message that carries structured data is parsed back with the same text whatever bytes the text contains.",
  "every text", "only texts with a closing bracket fail",
  ["message-immutable.go:Parse"])
p("C13", "Parsing is lossless",
  "When Parse succeeds, String() of the result is exactly the bytes of the frame, and it is the concatenation of the six header fields, the structured data part and the text with the separators in between.",
  "every accepted byte string", "all accepted inputs",
  ["message-immutable.go:Parse", "message-immutable.go:MessageImmutable.String", "message-immutable.go:MessageImmutable.Text"])
p("C14", "Parse, Writable, Marshal is the identity on canonical messages",
  "For every frame produced by Marshal5424 from a message with valid fields, Parse then Writable then Marshal5424 reproduces the same bytes.",
  "every such message", "unbounded contents",
  ["message-immutable.go:MessageImmutable.Writable", "message.go:Message.Marshal5424"])
p("C15", "RFC 5425 framing is binary safe",
  "For every payload and every following bytes, PrefixStrip of the RFC 5425 encoding returns exactly the payload and exactly the following bytes.",
  "every payload (any bytes), every suffix", "all payloads of all lengths",
  ["transport.go:tRFC5425.Encode", "transport.go:tRFC5425.PrefixStrip"])
p("C16", "LF and NUL framing round trip",
  "For every non-empty payload without the terminator, SuffixStrip of the encoded frame followed by any bytes returns exactly the payload and those bytes; a payload with the terminator inside is cut at its first terminator.",
  "every payload, every suffix, both transports", "all payloads of all lengths",
  ["transport.go:tLFEnded.Encode", "transport.go:tLFEnded.SuffixStrip", "transport.go:tZeroEnded.Encode", "transport.go:tZeroEnded.SuffixStrip"])
p("C17", "An incomplete RFC 5425 frame is waited for, not an error",
  "On every strict prefix of a stream of RFC 5425 frames that ends inside its first frame, PrefixStrip without end-of-file asks for more data (all results nil).",
  "every payload, every cut point", "every cut point of every frame",
  ["transport.go:tRFC5425.PrefixStrip"])
p("C18", "RFC 5425 header is checked",
  "PrefixStrip of the RFC 5425 transport never panics and never returns a payload that is not inside the buffer, whatever the peer puts in the length header.",
  "every byte string", "hostile headers: negative, overflowing, signed",
  ["transport.go:tRFC5425.PrefixStrip"])
p("C19", "One log call is one received message (no injection)",
  "A text or field given to the logging API cannot create additional messages on the receiving side.",
  "every text, every transport", "needs a hostile text",
  ["transport.go:tLFEnded.Encode", "transport.go:tZeroEnded.Encode", "transport.go:tRFC5425.Encode", "message.go:Message.Marshal5424"])
p("C20", "Structured data values are escaped reversibly",
  "For every value, the encoder writes name=\"value\" with '\"', '\\\\' and ']' escaped; the value tokenizer reads back exactly the escaped bytes, stops exactly after the closing quote whatever follows, and un-escaping gives the value; two different values never have the same encoding.",
  "every byte string value, every suffix", "all values, all nesting of escapes",
  ["sdata/structured-data-encoder.go:encodeState.PrefixedWrite", "sdata/tokens.go:NextSDValue"])
p("C21", "Map structured data is encoded deterministically",
  "The encoding of a map does not depend on map iteration order, and parameters appear in increasing key order.",
  "every map content, every iteration order", "Go randomises map order",
  ["sdata/structured-data-encoder.go:newMapEncoder", "sdata/structured-data-encoder.go:stringValues"])
p("C22", "Unknown structured data round trips",
  "Decoding then encoding an unknown structured data element reproduces it (up to the number of spaces between parameters), and encoding then decoding a well formed element gives the same element.",
  "every element", "all identifiers, names and values",
  ["sdata/sd-unknown.go:unknownDef.Found", "sdata/sd-unknown.go:unknownSD.Marshal5424", "sdata/tokens.go"])
p("C23", "timeQuality round trip and validity",
  "TimeQuality.Marshal5424 fails exactly on the combinations RFC 5424 forbids, never panics, and the decoder gives back the same value; the decoder never returns an invalid TimeQuality.",
  "every TimeQuality value (any int accuracy), every byte string", "int domain and all byte strings",
  ["sdata/timequality/tq.go:TimeQuality.Marshal5424", "sdata/timequality/tq.go:tqdef.Found", "sdata/timequality/tq.go:TimeQuality.IsValid"])
p("C24", "Structured data decoders never panic",
  "sdata.Parse never panics on a structured data element taken from a parsed message, whatever is registered by the package.",
  "every element, every slice capacity", "depends on the spare capacity of the slice, invisible to a value-level test",
  ["sdata/timequality/tq.go:tqdef.Found", "sdata/sd-unknown.go:unknownDef.Found", "sdata/sd-generic.go:genericSDID.Found"])
p("C25", "Structured data list encoding",
  "An empty list is encoded '-', a non-empty list as the concatenation of its elements in order, and any element error makes the whole encoding fail with no bytes; so does Message.Marshal5424 and Send.",
  "every list of structured data", "all lengths and error positions",
  ["sdata/list.go:List.Marshal5424", "message.go:Message.Marshal5424", "connector.go:Sender.Send"])
p("C26", "Registry: first registration wins, lookup is order independent",
  "Register and RegisterGroup never replace an existing identifier, every registered identifier stays registered, and when at most one registered identifier recognises an element the result of Parse does not depend on map order; an element nobody recognises is decoded as unknown.",
  "every history of registrations, every iteration order", "unbounded histories, random map order",
  ["sdata/list.go:Register", "sdata/list.go:RegisterGroup", "sdata/list.go:registryT.Found"])
p("C27", "Struct structured data encoding",
  "The struct encoder writes one parameter per non-empty scalar field, in declaration order, under the tag name if the tag is valid and the field name otherwise, skips '-' tagged and empty fields, repeats list elements, and reports unsupported types as errors without panicking.",
  "every struct value", "all shapes of structs",
  ["sdata/structured-data-encoder.go:newStructEncoder", "sdata/structured-data-encoder.go:getName", "sdata/structured-data.go:parseTag", "sdata/structured-data.go:isValidTag"])
p("C28", "Messages are values: deriving one never changes another",
  "Calling StructuredData (or any setter) on a message never changes the structured data of the original message or of another message derived from it.",
  "every tree of derivations, every capacity growth policy", "depends on the spare capacity left by append",
  ["message.go:Message.StructuredData", "sdata/list.go:List.Add"])
p("C29", "Severity filter",
  "syslog.Channel(sev) forwards messages exactly when the severity of sev is at least as severe as the threshold given to New, whatever calls were made before; otherwise it is the /dev/null channel and nothing is sent.",
  "every priority threshold, every sev value, every history of calls", "all int values and histories",
  ["syslog.go:New", "syslog.go:Syslog.Channel", "syslog.go:Syslog.SubSyslog"])
p("C30", "Messages carry the channel's facility and severity",
  "Every message sent through Channel(sev) of a Syslog created with priority p, or of any SubSyslog of it, has facility of p and severity of sev.",
  "every p and sev, every derivation", "all int values",
  ["syslog.go:Syslog.Channel", "channel.go:msgChannel.Write", "channel.go:msgChannel.Log"])
p("C31", "Derived channels stay live and valid",
  "AppName(x) and Msgid(x) of a live channel give a live channel with app-name parent/x (or x for '-') and msgid x, sanitised, with every other attribute unchanged; on /dev/null they give /dev/null.",
  "every sequence of AppName/Msgid calls", "unbounded call chains",
  ["channel.go:trueChannel.AppName", "channel.go:trueChannel.Msgid", "channel.go:devnull"])
p("C32", "Everything sent by a Syslog has valid header fields",
  "Every message sent through any channel of any Syslog or SubSyslog has valid hostname, app-name, procid and msgid.",
  "every history of New, SubSyslog, Channel, AppName, Msgid, Log", "all strings and histories",
  ["syslog.go:Syslog.SubSyslog", "syslog.go:New", "channel.go"])
p("C33", "Channels are io.Writers that accept everything",
  "Channel.Write returns the number of bytes given and no error for every input; on /dev/null it sends nothing, on a live channel it sends exactly one message whose text is the trimmed input.",
  "every byte string, every channel", "all inputs",
  ["channel.go:msgChannel.Write", "channel.go:devnull.Write"])
p("C34", "Sender: exactly once, in order, across reconnections",
  "At every moment, the bytes written to all connections in order, followed by the bytes still queued, are exactly the concatenation of the encoded frames of the accepted Send calls in order: nothing is lost, duplicated or reordered, whatever the schedule, partial writes, write errors and reconnections.",
  "every interleaving of Send, tick, connect results, partial writes, errors, End", "schedules and failures are not enumerable",
  ["connector.go:Sender.Send", "connector.go:Sender.flushQueue", "connector.go:Sender.runQueue"])
p("C35", "End flushes",
  "When End returns, every message whose Send returned before End was called has been completely written.",
  "every interleaving", "schedules",
  ["connector.go:Sender.End", "connector.go:Sender.runQueue"])
p("C36", "End never crashes the program",
  "Calling End once on a Sender does not panic, whether or not something was sent before.",
  "every history before End", "crash only when no connection was ever made",
  ["connector.go:Sender.End", "connector.go:Sender.runQueue"])
p("C37", "Every connection carries whole frames",
  "The bytes written on each connection are a sequence of whole frames followed by at most one prefix of a frame.",
  "every interleaving of writes and errors", "needs an error in the middle of a frame",
  ["connector.go:Sender.flushQueue"])
p("C38", "Sender never blocks its users",
  "Send and End do not block for ever; a write or connect error does not stop later messages.",
  "every interleaving, every user of the error channel", "deadlock needs a full error channel",
  ["connector.go:Sender.flushQueue", "connector.go:Sender.Send", "connector.go:Sender.End"])
p("C39", "An accepted Send is delivered unless the sender was ended",
  "A message accepted by Send (nil error) is written if the connection keeps accepting data, unless End was completed before; after End nothing is ever written.",
  "every interleaving", "schedules",
  ["connector.go:Sender.Send", "connector.go:Sender.End"])
p("C40", "Receiver reassembles RFC 5425 streams",
  "For every sequence of parseable messages framed with RFC 5425, and every way the stream is cut into reads, the receiver delivers exactly these messages, in order, without error, and a cut inside a frame only delays it.",
  "every list of messages, every chunking", "all chunkings of all streams",
  ["listener.go:Receiver.tokenize", "message-immutable.go:Parse", "transport.go:tRFC5425"])
p("C41", "Receiver reassembles LF and NUL terminated streams",
  "For every sequence of messages framed with the LF or NUL transport, and every way the stream is cut into reads, the receiver delivers exactly these messages, in order, without error.",
  "every list of messages, every chunking", "all chunkings of all streams",
  ["listener.go:Receiver.tokenize", "message-immutable.go:Parse", "transport.go:tLFEnded", "transport.go:tZeroEnded"])
p("C42", "The receive loop always makes progress",
  "As long as the peer sends complete frames of at most 64 KiB the tokenizer always has room to read the next bytes, so it never spins.",
  "every chunking, every frame size up to the buffer size", "depends on the alignment of frames in the buffer",
  ["listener.go:Receiver.tokenize"])
p("C43", "A received message is immutable",
  "The bytes of a message returned by Receive never change, although they are a view of the connection's read buffer and the connection keeps reading.",
  "every chunking, every later read", "aliasing is visible only under particular buffer alignments",
  ["listener.go:Receiver.tokenize", "message-immutable.go:MessageImmutable"])
p("C44", "Receive preserves per-connection order and loses nothing",
  "With any number of connections and any queue length, Receive returns the messages of each connection in the order they were decoded, each exactly once.",
  "every number of connections, every interleaving, every queue length", "schedules",
  ["listener.go:Receiver.Receive", "listener.go:Receiver.runQueue", "listener.go:Receiver.tokenize"])
p("C45", "Ending a receiver is safe",
  "Calling Receiver.End once while connections are open never crashes the program, and the accept loop stops.",
  "every interleaving of End with accepts and deliveries", "needs a delivery after the close",
  ["listener.go:Receiver.End", "listener.go:Receiver.runQueue"])
p("C46", "An accept error is reported, not fatal",
  "When Listener.Accept returns an error, the error is reported on the error channel and the receiver keeps working.",
  "every sequence of accept results", "accept errors are hard to provoke",
  ["listener.go:Receiver.runQueue", "listener.go:Receiver.tokenize"])
p("C47", "Datagram reader delivers all bytes in order",
  "Reading from a unixgram listener's connection with buffers of any sizes returns the concatenation of the datagrams, without loss or duplication.",
  "every sequence of datagrams, every sequence of buffer sizes", "all read sizes",
  ["listener-unixdgram.go:fakeConn.Read"])
p("C48", "Dial selects connector and transport by network",
  "Dial succeeds exactly for stdio, local, unix, unixgram, tcp, tcp4, tcp6; it uses the given transport when not nil and otherwise LF for stdio/tcp and NUL for local sockets; a flush delay of at most 1ms disables the automatic flush.",
  "every network string, every transport choice, every delay", "all strings",
  ["dialer.go:Dialer.Dial", "dialer.go:Dial"])
p("C49", "Listener selection",
  "GuessListener accepts exactly tcp, tcp4, tcp6, unix and unixgram and returns ErrInvalidNetwork otherwise; TCPListener accepts exactly the three tcp names.",
  "every network string", "all strings",
  ["listener-guess.go:GuessListener", "listener-tcp.go:TCPListener"])
p("C50", "Local connector search order",
  "With no address the local connector uses the first of the six documented (type, path) pairs that accepts a connection, remembers it, and later reconnects only to it; with an address it tries unix then unixgram; it fails with ErrNoConnection only if all fail.",
  "every environment (which sockets accept), every sequence of connects", "all environments",
  ["connector-local_unix.go:localConn.osGuessConnnector", "connector-local.go:localConn.Connect"])
p("C51", "TCP connector dials only addresses of the requested family",
  "tcp4 dials only IPv4 addresses, tcp6 only others, tcp all in resolver order; Connect returns the first address that accepts, and an error if none does.",
  "every resolver answer, every subset of reachable addresses", "needs resolver answers of every shape",
  ["connector-tcp.go:tcpConn.Connect"])
p("C52", "Timestamps round trip with microsecond precision",
  "TimeStamp() of a parsed message is the timestamp given to the message truncated to the microsecond, for every year 0..9999 and every whole-minute zone offset.",
  "every time value", "all instants and offsets",
  ["message.go:RFC5424TimeStamp", "message.go:Message.Marshal5424", "message-immutable.go:MessageImmutable.TimeStamp"])
p("C53", "End to end delivery",
  "Messages sent with a Sender over the RFC 5425 transport are returned by the Receiver on the other side of a reliable byte stream with the same fields, in order, exactly once, whatever the flush schedule and the segmentation of the stream.",
  "every list of messages, every schedule, every segmentation", "composition of all of the above",
  ["connector.go:Sender", "listener.go:Receiver", "message.go:Message.Marshal5424", "message-immutable.go:Parse"])
p("C54", "Old-style stamps get the right year",
  "Timestamp(stamp) gives the stamp the current year, except a December stamp read in January, which gets the previous year; the month, day and time of a valid stamp are kept. So the stamp of anything that happened in the last 31 days gives exactly its date; a stamp that cannot be read gives midnight, January 1 of the current year.",
  "every current date, every stamp", "depends on the date the test runs",
  ["message.go:stampToTs", "message.go:Message.Timestamp"])
p("C55", "Listening sockets: stale sockets are replaced, other errors reported",
  "UnixListener and UnixgramListener succeed when the address is free or occupied by a removable socket file, report every other error, and terminate.",
  "every environment", "needs hostile file systems",
  ["listener-unix.go:UnixListener", "listener-unixdgram.go:UnixgramListener"])
p("C56", "Unix datagram listener accepts once",
  "Accept on a unixgram listener returns a connection the first time and blocks until Close afterwards, then reports an error.",
  "every history of Accept and Close", "schedules",
  ["listener-unixdgram.go:unixgramReceiver.Accept", "listener-unixdgram.go:unixgramReceiver.Close"])
p("C57", "Concurrent calls of Channel",
  "When several goroutines call Channel on the same Syslog, each of them gets the channel a sequential call would return.",
  "every number of goroutines, every interleaving", "a race that only a schedule between two statements shows",
  ["syslog.go:Syslog.Channel"])
p("C58", "Connections are closed",
  "When Sender.End has returned, every connection the sender opened has been closed.",
  "every history of connects, writes and errors", "leaks only show after failures at particular points",
  ["connector.go:Sender.flushQueue", "connector.go:Sender.runQueue"])
p("C59", "Sender errors are reported once, in order",
  "Every error of Connect and of Write (except ENOBUFS) is put on the error channel returned by NewSender/Dial, exactly once and in order, and nothing else is.",
  "every interleaving, every sequence of failures", "schedules",
  ["connector.go:Sender.flushQueue", "connector.go:NewSender"])

p("C60", "A finished connection stops its reader",
  "When the connection reports end of file or a read error, the goroutine reading it stops and closes the connection.",
  "every sequence of reads and read errors", "needs every point at which a read may fail",
  ["listener.go:Receiver.tokenize"])
p("C61", "A malformed message costs only itself",
  "On a reliable stream, a well framed payload that is not a valid message yields exactly one error from Receive and does not disturb the messages before and after it.",
  "every list of payloads, every position of bad ones, every segmentation", "every mix of good and bad payloads",
  ["listener.go:Receiver.tokenize", "message-immutable.go:Parse", "transport.go:tRFC5425.PrefixStrip"])
p("C62", "No peer can crash or hang the receiver",
  "Whatever bytes a peer sends and however they are segmented, the receiver neither panics nor loops without reading.",
  "every byte stream, every segmentation, every transport", "all inputs",
  ["listener.go:Receiver.tokenize", "message-immutable.go:Parse", "transport.go"])

p("C63", "Unread errors do not stop reception",
  "A receiver keeps accepting connections and delivering messages when the program does not read the error channel that NewReceiver returns.",
  "every history of accepts, reads and errors", "needs more failures than the channel holds, at every point",
  ["listener.go:NewReceiver", "listener.go:Receiver.runQueue", "listener.go:Receiver.tokenize"])

p("C64", "Epoch sets the instant its arguments say",
  "Epoch(sec, nsec) sets the timestamp, in the local time zone, to the instant sec seconds and nsec nanoseconds after 1970-01-01T00:00:00Z, as a date that exists, and changes nothing else; what is not an integer counts as 0 and what does not fit in 64 bits counts as the limit.",
  "every pair of texts whose first one does not exceed 2^62 in absolute value, every time zone", "the calendar of every second of 292 billion years",
  ["message.go:epochToTs", "message.go:Message.Epoch"])
p("C65", "Delta adds to the boot time",
  "Delta(boot, sec, nsec) sets the timestamp to boot plus sec seconds and nsec nanoseconds, and changes nothing else.",
  "every boot time, every pair of texts", "overflow needs extreme values",
  ["message.go:deltaBootToTs", "message.go:Message.Delta"])
p("C66", "A message cut by the end of the connection is delivered or reported",
  "When the connection ends inside a frame, the program learns about it: the receiver returns what arrived, or an error, for the unfinished message.",
  "every list of complete messages before it, every cut inside a frame, every segmentation, every transport", "every cut point and segmentation",
  ["listener.go:Receiver.tokenize", "message-immutable.go:Parse", "transport.go"])
p("C67", "UnmarshalSD decodes what MarshalSD encoded, or reports an error",
  "UnmarshalSD(data, &v) stores in v the value whose encoding is data, and otherwise reports an error; a target that cannot receive a value is reported.",
  "every value, every data, every target", "all values",
  ["sdata/structured-data-decoder.go:UnmarshalSD"])
p("C68", "The identifier of structured data is the SD-ID on the wire",
  "For every structured data, the identifier SDID() returns is the SD-ID of its encoding.",
  "every structured data that can be encoded", "all values, registered or not",
  ["sdata/sd-unknown.go:unknownSD.SDID", "sdata/timequality/tq.go:TimeQuality.SDID", "sdata/sd-generic.go:genericSD.SDID"])
p("C69", "Registered generic structured data is decoded and can be re-encoded",
  "An element whose generic SD-ID is registered is decoded with its parameters, and what is decoded can be encoded again.",
  "every generic SD-ID, every element", "all elements",
  ["sdata/sd-generic.go:genericSDID.Found", "sdata/sd-generic.go:genericSD.Marshal5424", "sdata/list.go:Parse"])
p("C70", "Ending a sender leaves the process's standard streams open",
  "End on a sender dialed to stderr: or stdout: does not close that stream of the process; the program and other senders can still write to it.",
  "every history of calls, connects and writes", "an effect on the whole process, in every history",
  ["connector-fd.go:StdioConnector", "connector.go:Sender.runQueue"])
p("C71", "A sender whose destination is invalid reports it and can be ended",
  "An address that can never work is reported by Dial or on the error channel, and End returns.",
  "every address, every history", "every history",
  ["connector-fd.go:StdioConnector", "connector-tcp.go:TCPConnector", "connector-invalid.go:InvalidConnector.Connect", "connector.go:Sender.runQueue"])
p("C72", "End to end delivery over line transports",
  "Messages sent with a Sender over the LF or the NUL transport, whose text is not empty and does not contain the terminator and that have no structured data, are returned by the Receiver on the other side of a reliable byte stream with the same fields, in order, exactly once, whatever the flush schedule and the segmentation of the stream.",
  "every list of such messages, every schedule, every segmentation", "composition of two concurrent programs over all segmentations",
  ["connector.go:Sender", "listener.go:Receiver", "transport.go:TransportLFEnded", "transport.go:TransportZeroEnded", "message-immutable.go:Parse"])

p("C73", "What is logged is what is received",
  "A program that creates a Syslog and logs lines with Channel(sev).AppName(...).Msgid(id).Log(text, sd...) or Write never panics; exactly the lines whose severity passes the threshold are sent, in order, and the Receiver on the other side returns for each of them the facility given to New with the severity of the channel, the time to the microsecond, the sanitised host and names, the process identifier, the text without trailing white space, and the structured data.",
  "every list of log lines, every schedule of the sender and the receiver, every segmentation", "composition of the whole library over all schedules",
  ["syslog.go:New", "syslog.go:Syslog.Channel", "channel.go:Channel", "connector.go:Sender", "listener.go:Receiver"])

p("C74","Messages in datagrams, from several senders to one socket",
  "On a unixgram socket, where every datagram is one message with the framing of the transport and of at most 500 bytes, the read loop of the receiver takes one datagram per iteration and Receive returns exactly the messages of the datagrams, in the order in which they came, each once, with all fields and no error, whatever errors the system answers in between; messages of one sender come in the order in which it sent them, whatever the number of senders and of their connections, and one is missing only if its datagram is. Datagrams up to 64 KiB still come in order, but the loop can stop for ever.",
  "all transports, message lists, sequences of datagrams and errors, numbers of senders, histories of senders and receiver",
  "the number and interleaving of datagrams, senders and connections are unbounded, and so is the number of times the 64 KiB buffer moves",
  ["listener-unixdgram.go:fakeConn.Read", "listener-unixdgram.go:unixgramReceiver.Accept", "listener.go:Receiver.tokenize", "connector.go:Sender.Send", "connector.go:Sender.flushQueue", "message-immutable.go:Parse"])

p("C75","A flush delay of at most a millisecond disables automatic flushing",
  "A sender dialed with a FlushDelay of at most one millisecond does nothing until End is called: it does not connect, writes nothing and reports nothing, Send is never blocked, and the accepted messages stay queued, each once and in order.",
  "every such delay, network, address, transport, and every history of concurrent calls", "every history",
  ["dialer.go:Dialer.Dial", "connector.go:Sender.runQueue", "connector.go:Sender.Send"])
p("C76","How a connection groups its writes does not matter",
  "Connections that take several queued frames in one operation (TCP and unix sockets, with writev) behave as those that take them one by one: whatever happens with them could happen one by one with the same calls, connects, errors and bytes on every connection. So each message is still written once and in order, End and every turn of the sender still flush, the first connection carries whole frames and every error is reported once.",
  "all transports, histories, groupings, and numbers of bytes accepted before an error", "every grouping and every cut of every queue at every point of every history",
  ["connector.go:Sender.flushQueue", "connector.go:Sender.runQueue", "connector-tcp.go:tcpConn.Connect", "connector-local.go:localConn.Connect"])

p("C77","The registry of structured data can be used by several goroutines",
  "Any number of goroutines may call sdata.Register, RegisterGroup and Parse at the same time: the results are those of the same calls made one after the other, in the order in which they return; the calls of each goroutine return in its order; the first registration of a name to return is the one used by every later Parse of every goroutine; every call returns, whatever the Found methods of the registered SDIDs do (also when they panic, or use the package).",
  "all numbers of goroutines, interleavings, map iteration orders, sets of SDIDs and behaviours of their Found methods", "every interleaving of any number of goroutines, every iteration order of the map and every Found method",
  ["sdata/list.go:registryT.Found", "sdata/list.go:Register", "sdata/list.go:RegisterGroup", "sdata/list.go:Parse"])
p("C78", "Structured data made from Go values arrives as these values",
  "What a program puts into the structured data of a message with GenericSD, as a struct or a map, is what the receiving program gets from StructuredData: the same identifiers, names and values (without their escapes), in the same order, and no other element. No field value, key or name can add or change another element.",
  "every struct and map value of every supported type, every value of the fields, every message", "a test tries a few values; the claim is about every byte a value, key or name can hold",
  ["sdata/sd-generic.go:GenericSD", "sdata/structured-data-encoder.go:newStructEncoder", "sdata/structured-data-encoder.go:newMapEncoder", "sdata/structured-data-encoder.go:PrefixedWrite", "sdata/structured-data.go:isValidTag", "sdata/sd-unknown.go:unknownDef.Found", "message-immutable.go:StructuredData"])

p("C79", "Everything received is cut from the wire",
  "Whatever bytes a peer sends, however they are cut into reads and with every transport, the bytes that arrived on a connection are the frames of the pairs delivered from it, in order and one right behind the other, followed by the bytes that still wait: every message and every error delivered comes from one frame of its own, has the content of that frame, and no byte is used twice or skipped.",
  "all transports, all byte streams (not only streams of well formed frames), all segmentations into reads, all connections, queue lengths and interleavings",
  "Arbitrary streams under arbitrary segmentation; tests feed well formed frames.",
  ["listener.go:tokenize", "message-immutable.go:Parse", "transport.go:PrefixStrip", "transport.go:SuffixStrip", "listener.go:Receiver.Receive"])

p("C80", "An RFC 5425 receiver is a function of the bytes, not of the reads",
  "Whatever bytes arrive over an RFC 5425 connection, well formed or not, what is delivered from it is determined by the bytes alone: the payloads of the frames at the front of the stream, in order, each delivered as the message it is or as an error, with the bytes behind the last complete frame kept for later. Two receivers that got the same bytes in different reads deliver the same, and the streams on which the receiver crashes are exactly those with a length header that is negative or overflows behind some frames (or that end, with the last read, right behind the structured data of an incomplete message).",
  "all byte streams, all pairs of segmentations into reads, all points of the stream, all interleavings of connections",
  "Arbitrary streams and all pairs of segmentations.",
  ["listener.go:Receiver.tokenize", "message-immutable.go:Parse", "transport.go:PrefixStrip", "listener.go:Receiver.Receive"])

p("C81", "A parse error says what is wrong and where",
  "For every input that Parse does not accept, the error is the one that the bytes deserve: ErrPosNotFound when the header or the structured data stops before its space, ErrPos0 for an empty header field or a closing bracket with nothing before it, a ParseError at the offending byte otherwise (not `-`, or the byte before a closing bracket that is neither a backslash nor a double quote), ErrImpossible for structured data that ends inside an escape; with RFC 5425, the errors of the length header. Parse reports an error exactly when there is one to report, the same one whatever the transport that brought the payload, and it returns no message with it; a receiver delivers with each frame exactly the error of its payload.",
  "all byte strings, all transports, both values of atEOF, all streams and all ways they are cut into reads",
  "All inputs, and the exact position for each of them; a table test pins a few malformed messages.",
  ["message-immutable.go:Parse", "message-immutable.go:searchNextSep", "message-immutable.go:dispatchError", "transport.go:PrefixStrip", "errors.go:ParseError"])

p("C82", "A fair sender eventually writes, lets Send return and lets End return",
  "In every endless execution in which the goroutine of the sender keeps being scheduled, the errors put on the channel are read and nothing crashes: again and again a call of Send can return, even if every write and every connect fails; once the network has recovered (after any number of failures) and as long as End is not called, everything that Send has accepted up to any moment is written at some later moment; once End has been called, the network has recovered and Send is not called any more, End returns. (Sends must stop: a sender can be kept draining for ever by messages sent while it is ending.)",
  "all infinite executions of Send, End, error reads, ticks, connect and write results, under the stated fairness only; all messages and all transports",
  "Liveness ranges over infinite schedules; a test observes a finite prefix and cannot tell slow from never.",
  ["connector.go:runQueue", "connector.go:flushQueue", "connector.go:Send", "connector.go:End"])

p("C83", "A fair receiver eventually returns everything that has arrived",
  "In every endless execution of a receiver in which Receive keeps being called, the errors are read, nothing crashes and the goroutine of a connection is served (no channel refuses it for ever): everything that the reads on the connection decode to, up to any moment, has been returned by Receive at some later moment, in order; with RFC 5425, every payload whose frame has arrived completely is returned, whatever the bytes; and the goroutine of the connection comes back to Read again and again until its loop returns, and then closes the connection.",
  "all infinite executions, all numbers of connections, all queue lengths, all bytes and segmentations, under the stated fairness only",
  "Liveness ranges over infinite schedules with any number of competing connections; a test observes a finite prefix.",
  ["listener.go:tokenize", "listener.go:runQueue", "listener.go:Receive"])

p("C84", "From Send to Receive, eventually",
  "A sender whose goroutine keeps running and whose errors are read, over a connection that no write failure interrupts (connects may fail before one succeeds) and that loses nothing, to a receiver on which Receive keeps being called: every message given to Send (as long as End is not called; or before End is called, if sends then stop) is returned by Receive at some later moment, in order, exactly once, with all its fields and no error. The messages are those that the transport can carry (C53 for RFC 5425, C72 for LF and NUL).",
  "all infinite executions of a sender and of a receiver under the stated fairness, all sequences of transmissible messages, all queue lengths, all segmentations, all other connections",
  "Two concurrent systems and infinite schedules; tests see one interleaving of a few messages.",
  ["connector.go:Send", "connector.go:runQueue", "listener.go:tokenize", "listener.go:Receive", "transport.go"])

p("C85", "A receiver keeps accepting connections, and ends",
  "In every endless execution of a receiver whose accepting goroutine keeps running, whose errors are read and that does not crash: as long as End is not called, the goroutine is in Accept again and again, whatever the number of connections, of failures of Accept and of unread messages; once End was called, if the call of Accept in progress returns, the goroutine closes the queue and the listener, everything that was in the queue is received, and every later Receive reports the end.",
  "all infinite executions, all numbers of connections, failures and queue lengths, under the stated fairness only",
  "Liveness ranges over infinite schedules; a test that waits for the end cannot tell slow from stuck.",
  ["listener.go:runQueue", "listener.go:End", "listener.go:Receive"])

p("C86", "A transport written by the user works like the built-in ones",
  "With any implementation of Transport whose PrefixStrip finds the payload and the rest of a buffer that begins with a whole frame, and asks for more bytes for the beginning of one: a receiver delivers exactly the frames that have arrived entirely, in order, each once, whatever the cut of the stream into reads; Parse returns the rest that the transport gave and the message of the payload, or the error that says what is wrong, never panics, and keeps an error reported by the transport; a sender writes exactly what Encode made of the accepted messages, in order; and from Send to the receiver every field of every message survives.",
  "all implementations of the interface that meet the contract, all payloads, all segmentations, all histories of a sender",
  "No test can range over the transports a user may write.",
  ["transport.go:Transport", "message-immutable.go:Parse", "message-immutable.go:parseReturn", "listener.go:tokenize", "connector.go:Send"])

p("C87", "A sender can be used by several goroutines without data race",
  "Whatever the goroutines of the user do and however they are scheduled, any two accesses to the queue of a sender, of which one writes, are ordered by the happens-before relation of the Go memory model: Send may be called from any number of goroutines, while the sender flushes, reconnects and ends.",
  "all histories of a sender, all assignments of the calls to goroutines, all synchronisation the user adds",
  "The race detector finds a race in the schedules that a test happens to run; its absence is a statement about all of them.",
  ["connector.go:Send", "connector.go:flushQueue", "connector.go:runQueue", "connector.go:End"])

p("C88", "Memory stays bounded when the user or the network is slow",
  "A receiver holds at most the given number of pairs in its queue and ten errors, and what it has read from a connection and not yet given to Receive is at most 64 KiB for each queued pair of that connection and 64 KiB more: if the user stops receiving, the receiver stops reading. A sender whose destination cannot be reached stops accepting messages.",
  "all histories of a receiver, all bytes and reads, all queue lengths; all histories of a sender",
  "A bound on memory is a statement about all histories, of any length; a test sees one.",
  ["listener.go:NewReceiver", "listener.go:tokenize", "listener.go:Receive", "connector.go:Send", "connector.go:flushQueue"])

p("C89", "What an LF or NUL receiver delivers from any bytes",
  "Whatever bytes arrive over an LF or NUL terminated connection, well formed or not, what is delivered is determined by the bytes of the reads alone (not by the errors that come with them): after each read, as long as all the bytes that are there, taken as one message, have the terminator in their text, the message before the first such terminator is delivered, without error, with its bytes, its fields and its text; the rest is kept. The receiver crashes exactly when after some read a message that stops right behind its structured data is left. As long as no closing bracket arrives, only the bytes matter, not the reads.",
  "all byte streams, all pairs of segmentations into reads, all errors of Read, all interleavings of connections",
  "Arbitrary streams and all their segmentations.",
  ["listener.go:Receiver.tokenize", "message-immutable.go:Parse", "transport.go:SuffixStrip", "listener.go:Receiver.Receive"])

p("C90", "A received message can be used while the receiver goes on",
  "A message that was received is a window of the memory the receiver reads into. Whatever is read later over the same connection, every accessor of the message gives the answer it gave when the message was delivered. No byte that String, Priority, TimeStamp, Hostname, AppName, ProcID, MsgID or Text looks at is written by a later Read, so they need no synchronisation with the receiver; the same holds for StructuredData and Writable.",
  "all transports, all byte streams and segmentations before and after the message was delivered, all messages, all registries of decoders that look only at their element",
  "Every later history of the connection; a data race shows up only under the race detector and with the right schedule.",
  ["listener.go:Receiver.tokenize", "message-immutable.go:MessageImmutable.StructuredData", "message-immutable.go:MessageImmutable.Writable", "sdata/timequality/tq.go:tqdef.Found"])

p("C91", "A sender with any connector function",
  "Whatever Connect of a user's Connector or ConnectorFunc returns (a connection, an error, both, or neither), the accepted messages are written once, whole and in order over the connections, and every error of Connect and Write is reported once and in order. A connection that came with an error is not used, and a Connect that returns neither does not crash the program.",
  "all histories of calls, ticks, results of Connect and Write, all transports",
  "All histories and all four kinds of results at any time.",
  ["connector.go:ConnectorFunc", "connector.go:Sender.flushQueue", "connector.go:Sender.runQueue"])

p("C92", "Send and End can be called by several goroutines at the same time",
  "Calls of Send and End from any number of goroutines, however their steps and those of the sender interleave, look as if each took place at once at a moment between its call and its return: what is written and what waits is the frames of the accepted messages, each once, for every goroutine in the order of its calls, and a message whose Send returned before another Send was called comes first. Send returns nil exactly for the messages that can be marshalled. When End returns, everything whose Send returned before End was called is written. A Send that holds the lock releases it by its own next steps.",
  "all numbers of goroutines, all interleavings of the steps of their calls with each other and with the flushing goroutine, all failures of the network",
  "Every schedule of every number of goroutines.",
  ["connector.go:Sender.Send", "connector.go:Sender.End", "connector.go:Sender.flushQueue", "connector.go:Sender.runQueue"])

p("C93", "A receiver gives each message before it decodes the next one, and this changes nothing but the moment of a crash",
  "The goroutine of a connection decodes one message, gives it to Receive (possibly waiting for the queue), and only then decodes the next one of what it read. In every schedule of any number of connections, Receive calls, End and failures, what Receive returns, what waits, the errors, the closing and whether the program crashed are as if everything that a read brought were decoded at the moment it was read: the same from every connection in the same order. The only difference is that messages in front of bytes that crash the program may be received before the crash. The converse holds as well: every behaviour of the receiver that decodes at once is one of this receiver.",
  "all schedules, all numbers of connections, all bytes and segmentations, all queue lengths, all three transports",
  "Every interleaving of decoding, sending, receiving and End.",
  ["listener.go:tokenize", "listener.go:runQueue", "listener.go:Receive", "message-immutable.go:Parse"])

p("C94", "The text of an error is one printable line that shows what was received",
  "Whatever the bytes a peer sent, the text of the error of Parse (with any transport) is well formed UTF-8 without control characters, so that logging it cannot forge or break a log line. The text of a ParseError shows the bytes that were parsed as a Go string literal, the position and the message, without ambiguity; two errors of Parse with the same text are the same error. The same holds of the errors of the functions that read structured data (NextHeader, NextNonSpace, NextSDName, NextSDValue), which report exactly the first offending byte. It should hold of every error of the package.",
  "all byte strings, all transports, all printability tables of strconv",
  "Every byte string, including invalid UTF-8 and escapes; injectivity of the quoting.",
  ["errors.go:ParseError.Error", "message-immutable.go:Parse", "sdata/tokens.go:NextHeader", "sdata/tokens.go:NextSDName", "sdata/tokens.go:NextSDValue", "priority.go:Unmarshal5424", "priority.go:Set", "dialer.go:Dial"])

p("C95", "The published test helpers pass exactly on what they are meant to establish",
  "A test made by TestValid(orig, obj, enc) passes on an identifier exactly if orig is an element of that identifier that says obj, and enc is the wire form of obj; one made by TestInvalidUnmarshal(orig) passes exactly if orig is no such element; one made by TestInvalidMarshal(obj, err) passes exactly if encoding obj fails with err. Running a test returns: it does not panic.",
  "all texts, all objects, all errors, every capacity of the slice made from the text",
  "A test helper is itself code: that it passes on exactly the right cases quantifies over all texts and objects.",
  ["sdata/exported-testing.go:TestValid", "sdata/exported-testing.go:TestInvalidUnmarshal", "sdata/exported-testing.go:TestInvalidMarshal", "sdata/exported-testing.go:DoTest", "sdata/timequality/tq.go:Found", "sdata/sd-generic.go:Found"])

p("C96", "Structured data made from Go values obeys the RFC 5424 grammar",
  "A struct or a map given to GenericSD is encoded as an SD-ELEMENT of RFC 5424 (names of 1 to 32 printable ASCII characters without delimiters, escaped values), whatever its values are, or reported as an error; a message never carries two elements with the same identifier. Hence a message with such elements is a SYSLOG-MSG of RFC 5424.",
  "every struct and map value, every tag, key, identifier and value",
  "All tags, keys and values of all lengths, in every Unicode alphabet.",
  ["sdata/structured-data.go:isValidTag", "sdata/structured-data-encoder.go:getName", "sdata/structured-data-encoder.go:newMapEncoder", "sdata/structured-data-encoder.go:HeaderWrite", "message.go:StructuredData"])

p("C97", "The timestamp of a received message is the one that was written, and the zero time if there is none",
  "TimeStamp of a received message returns the time its TIMESTAMP field says, exactly (to the microsecond and with the offset), if that field is a TIMESTAMP of RFC 5424, and the zero time if it is anything else.",
  "every received message, every content of its timestamp field",
  "All byte strings of all lengths in the timestamp field; all dates, fractions and offsets.",
  ["message-immutable.go:TimeStamp", "message.go:RFC5424TimeStamp"])

p("C98", "Several goroutines can log through one Syslog: every line arrives once, each goroutine's in its order",
  "When several goroutines write log lines through the channels of one Syslog at the same time, the receiver gets exactly one message for each line that passes the threshold, saying what that line says, never a mixture of two; the messages of one goroutine come in the order of its program, and a line that returned before another one began comes first. After End has returned all of them have been written.",
  "every number of goroutines, every list of log lines of each of them, every interleaving of the steps of their calls with each other and with the sender, every segmentation at the receiver",
  "All interleavings of any number of goroutines with the sender, the network and the receiver; a test sees a few schedules.",
  ["channel.go:Log", "channel.go:Write", "syslog.go:Channel", "connector.go:Send", "connector.go:End", "connector.go:runQueue", "listener.go:tokenize", "listener.go:Receive"])

p("C99", "Structured data is received as values of the registered types",
  "A program that registers identifiers reads the structured data it receives with them: StructuredData returns, for each element that was sent and in the order in which they were sent, what the registered identifiers make of the text of that element. With the timequality package imported, a TimeQuality that was sent (with a positive accuracy) arrives as an equal TimeQuality; other elements arrive with the identifier, names and values that were sent.",
  "every message with well formed structured data, every set of registered identifiers in every order of the registry, every transport history and segmentation",
  "All texts of elements and all registries, and the order in which Go iterates a map; a test tries a few elements with one registry.",
  ["message-immutable.go:StructuredData", "sdata/list.go:Parse", "sdata/list.go:Found", "sdata/timequality/tq.go:Found", "sdata/sd-generic.go:Found", "sdata/sd-unknown.go:Found"])

p("C100", "A sender that reconnects delivers everything it was given",
  "If the sender and the receiver keep running, errors are read, the network recovers and carries on each connection what was written to it, then every message given to Send is eventually returned by Receive, unchanged, however many times the sender had to connect again: taken connection by connection, what Receive returns begins with what was sent, in the order in which it was sent. This needs the connection to be changed between two frames, which is the case if a write that fails has accepted nothing.",
  "every infinite fair execution of a sender with any number of connections and of a receiver with any other connections, any queue length, any segmentation",
  "Liveness over infinite executions with arbitrarily many failures; a test waits a bounded time with one failure.",
  ["connector.go:Send", "connector.go:runQueue", "connector.go:flushQueue", "listener.go:tokenize", "listener.go:Receive", "transport.go"])

p("C101", "Every line that is logged is eventually received",
  "A program logs for ever through Channel(sev).AppName(...).Msgid(...).Log or Write to one sender. If the sender and the receiver keep running, errors are read, the network recovers and carries on each connection what was written to it, then for every line that passes the severity filter Receive eventually returns a message without error that has the facility given to New, the severity of the channel, the time of the call to the microsecond, the host, the application path, the process id, the message id, the trimmed text and the structured data of this line; each line once, in the order of the program, however many times the sender had to connect again between two frames.",
  "every endless program of log lines that can be transmitted, every infinite fair execution of the sender (any number of connections) and of the receiver (any other connections, queue length, segmentation)",
  "Liveness of the whole library over infinite executions with arbitrarily many failures.",
  ["syslog.go:New", "syslog.go:Channel", "channel.go:Log", "connector.go:Send", "connector.go:runQueue", "listener.go:Receive", "listener.go:tokenize"])

p("C102", "Several goroutines can call Receive: every message goes to exactly one call",
  "If several goroutines call Receive on the same receiver, every message that leaves the receiver is returned by exactly one call; what the calls of one goroutine return from one connection are messages of this connection in the order of the connection; a call that begins after another one has returned gets a later message; once a call has returned that the receiver has ended, so do all calls that begin later. One goroutine that calls Receive again and again is enough for everything to be received, whatever the others do, and if calls that can return do so, every message sent is returned to some goroutine.",
  "every number of goroutines, every interleaving of the steps of their calls with the receiver, the connections and the environment; every infinite fair execution",
  "Which goroutine wins a channel operation is decided by the scheduler; a test sees a few schedules.",
  ["listener.go:Receive", "listener.go:End", "listener.go:tokenize", "listener.go:runQueue"])

p("C103", "A Syslog on which Channel was called once can be shared by goroutines without data races",
  "On a Syslog on which Channel has returned once, or that SubSyslog has returned, any number of goroutines may call Channel, SubSyslog and log, without any synchronisation: there is no data race in the sense of the Go memory model, no call panics, and every call returns what it returns when it runs alone. Calls of TestMode must be kept apart from one another and from SubSyslog, and assignments of Now from one another and from logging. A Syslog fresh from New is race-free if one call of Channel has returned before every other one and before the others know of it.",
  "every Syslog that New, Channel, TestMode and SubSyslog can produce, every number of goroutines, every interleaving of the memory accesses of their calls, every synchronisation relation of the program",
  "A data race is the absence of an order between two accesses in some execution; the race detector only sees the executions of the test.",
  ["syslog.go:Channel", "syslog.go:SubSyslog", "syslog.go:TestMode", "channel.go:Log", "channel.go:Now"])

p("C104", "Every call of Send and End returns, and what concurrent goroutines send or log is received",
  "When any number of goroutines call Send on one sender at the same time, each call being several steps between which anything else can happen, every call of Send returns, even if no connection can ever be made, provided the scheduler lets goroutines run and somebody reads the error channel. A call of End returns when Send is not called any more and the network works at last. Every message whose Send has been called is received in the end, once, and the messages of one goroutine in the order of its calls, if the network works at last and delivers what was written; and so is every log line that passes the threshold, when goroutines log through one Syslog.",
  "every number of goroutines, every message, every endless interleaving of the steps of their calls with the goroutine of the sender, the network, the readers of errors and the receiver, in which goroutines are not forgotten by the scheduler",
  "That every call returns, and that everything arrives, is a statement on endless executions; a test stops after a finite time and sees few interleavings.",
  ["connector.go:Send", "connector.go:End", "connector.go:runQueue", "listener.go:Receive", "channel.go:Log"])

p("C105", "From many goroutines that log to many goroutines that receive, over reconnections",
  "When any number of goroutines log through one Syslog and any number of goroutines call Receive, one of them again and again, every log line that passes the threshold is returned by a call of Receive to exactly one goroutine, and says what was logged; the lines of one logging goroutine that arrive over one connection are in its order. It does not matter which connections fail and are opened again, provided the network works at last and delivers what was written.",
  "every number of goroutines on both sides, every log call, every endless interleaving of the steps of all calls with the goroutines of the sender and of the receiver and the network, in which goroutines are not forgotten by the scheduler",
  "It is a statement on endless executions of a whole system with any number of goroutines on both ends; a test sees one finite interleaving of a few goroutines.",
  ["channel.go:Log", "connector.go:Send", "connector.go:runQueue", "listener.go:tokenize", "listener.go:Receive"])

p("C106", "A program that forwards what it receives",
  "A program that gives the Writable of every message it receives to the Send of a second sender, possibly with another transport, changes nothing: the message has the same bytes, travels wherever the first one did, and what is received behind the program, and behind any number of such programs in a row, are the messages given to the first sender, in order, each exactly once, with all fields and no error; and when everybody keeps running, every message comes out at the end.",
  "every message, any transports on both sides, any identifiers registered in the program, any number of programs in a row, every history of both senders and both receivers, every segmentation and queue length, every endless execution in which the goroutines are scheduled and the networks recover",
  "It ranges over all messages and over the interleavings of four goroutine systems and two networks; a test forwards some messages once.",
  ["message-immutable.go:Writable", "message.go:Marshal5424", "connector.go:Send", "connector.go:runQueue", "listener.go:Receive", "sdata/list.go"])

p("C107", "Forwarding whatever was received",
  "Whatever bytes were received: every message that Parse or Receive returned can be made writable, what is written for it is at most 512 bytes longer, and, written once, it is stable: the next one who receives it reads it without an error, with the same priority, time, header fields, structured data and text, and writes the same bytes again. A program that forwards all messages it receives without an error over RFC 5425 thereby passes on all of them, in order, each exactly once, however malformed the rest of what it receives may be.",
  "every byte sequence, segmentation and transport at the first receiver, every message parsed from it, every history of the forwarding sender and of the second receiver",
  "It ranges over all inputs of the parser, not only over those this package writes, and over all schedules; a test forwards some messages.",
  ["message-immutable.go:Parse", "message-immutable.go:Writable", "message.go:Marshal5424", "listener.go:tokenize", "connector.go:Send", "listener.go:Receive"])

p("C108", "A receiver with any listener",
  "Whatever Accept of a listener written by the user returns (a connection, an error, both, or neither) and in whatever order, what Receive returns of each connection is what was parsed of the bytes that were read of it, complete and in order; a connection that comes with an error is served and the error is reported; and the program does not crash.",
  "every sequence of results of Accept and of Read, and every schedule of the goroutines of the receiver",
  "It ranges over all implementations of an interface and all schedules; a test has one listener.",
  ["listener.go:Listener", "listener.go:DataReader", "listener.go:runQueue", "listener.go:tokenize"])

p("C109", "A sender with any Write",
  "Whatever Write of a connection given by the user reports (fewer bytes than it was given without an error, more bytes than it was given), what the connections accept is every accepted frame, once and in order, and Send and End return.",
  "every sequence of results of Write, every sequence of messages, every schedule of the sender and its callers",
  "It ranges over all implementations of an interface and all schedules; a test has one writer.",
  ["connector.go:WriteCloser", "connector.go:flushQueue", "connector.go:runQueue", "connector.go:Send"])

p("C110", "Every message sent to a datagram socket is eventually received",
  "Any number of senders that write to one datagram socket which loses nothing, and a receiver on that socket which keeps being asked: every message given to Send, by any of the senders, is eventually returned by Receive, exactly once, with all its fields and no error, those of one sender in the order in which they were sent, whatever fails before the network has recovered.",
  "every number of senders, every fair endless execution of each of them and of the receiver, every order in which the datagrams arrive, errors in between",
  "It is about endless executions of several goroutines and programs; a test sees a finite part of one of them.",
  ["connector-local.go:LocalConnector", "connector.go:flushQueue", "listener-unixdgram.go:UnixgramListener", "listener-unixdgram.go:Read", "listener.go:tokenize", "listener.go:Receive"])

p("C111", "A call that panics and is recovered has no effect",
  "A call of Send or End that panics and whose panic is recovered by its caller (as an HTTP server does for its handlers) leaves the sender as it was: what is written, the calls that go through and the calls that wait are those of the same execution without that call.",
  "every history of a sender, with any number of calls of Send and End that panic at any moments between the other events",
  "It is about every position of the panicking calls in every interleaving of the sender with its callers.",
  ["connector.go:Send", "connector.go:End", "connector.go:flushQueue", "message.go:Marshal5424", "transport.go:TransportLFEnded"])

p("C112", "A message is written after at most two ticks, and one more per failure",
  "What Send accepted is written to a connection once the sender has received two ticks more than there were failed calls of Connect and Write since: if it receives a tick at least every d, after at most 2d, and d more for every failure. What was accepted before a tick is written when the sender comes to the next tick, or to End, if nothing failed in between.",
  "every history of a sender, every moment of it, every number of failures, every timing of the events, calls of Send by any number of goroutines",
  "A test observes the delay of a few messages; the bound is about every interleaving of the calls, the ticks and the failures.",
  ["connector.go:Send", "connector.go:runQueue", "connector.go:flushQueue", "connector.go:NewSender"])

p("C113", "From many goroutines of many programs, over a datagram socket, to many goroutines that receive",
  "Several programs, in each of which several goroutines log through one Syslog, write to one datagram socket that loses nothing, and several goroutines call Receive, at least one of them again and again: every line that passes the threshold of its program is returned by a call of Receive, eventually, exactly once, with the host, application, process identifier, time, text and structured data of its program and line; the lines of one goroutine come in its order. Connects and writes may fail before, and errors of the socket may come in between.",
  "every number of programs and of goroutines that log and that receive, every interleaving of their calls, every order in which the datagrams of different programs arrive, every sequence of failures until the network works, every queue length, all lines of at most 500 bytes with the framing",
  "A test runs a few programs once; the claim is about every schedule of any number of them, and about what happens eventually.",
  ["connector.go:Send", "connector.go:runQueue", "listener-unixdgram.go:Accept", "listener-unixdgram.go:Read", "listener.go:tokenize", "listener.go:Receive", "syslog.go:New", "channel.go:Log"])

p("C114", "Once End has returned, the program can exit",
  "When End has been called and has returned, the program can exit: every message whose Send had returned when End was called is returned by a call of Receive, eventually, once, the messages of each goroutine in its order, whatever happens to the sender later; and if no call of Send was under way, so is every log line that passes the threshold. This holds for stream transports over changing connections, and for any number of programs that exit, each at its own moment, over one datagram socket that loses nothing.",
  "every number of goroutines that send, every interleaving of their calls with End and with the goroutine of the sender, every sequence of failed connects and writes before, every behaviour of the sender afterwards, every schedule of the goroutines that receive, every queue length",
  "A test that exits after End shows one schedule; a loss would show only when the flush races with the last calls of Send.",
  ["connector.go:Send", "connector.go:End", "connector.go:runQueue", "connector.go:flushQueue", "listener.go:tokenize", "listener.go:Receive", "listener-unixdgram.go:Read", "syslog.go:New", "channel.go:Log"])

p("C115", "A log server receives from many programs what they sent",
  "Any number of programs send to one receiver over stream connections, each from several goroutines, each changing its connection when it fails, some for ever, others until they call End and exit, each at its own moment. At some moment the calls of Receive (of several goroutines of the server) have returned, of every one of these programs, every message whose Send had returned before the moment chosen for it, once, the messages of each goroutine in its order; and nothing else: what arrives on the connections of a program was given to Send by goroutines of that program, each at most as often as it was given, and the fields of every message are those of a line of the program on whose connection it arrived.",
  "every number of programs, of goroutines and of connections, every assignment of connections, every interleaving, every sequence of failed connects and writes (that accept nothing), every moment at which a program exits, every way the streams are cut into reads, every queue length, every schedule of the server",
  "A test runs a few programs on one schedule; that programs do not disturb each other, whichever of them fail, reconnect or exit, is a statement about every interleaving of all of them.",
  ["connector.go:Send", "connector.go:End", "connector.go:runQueue", "connector.go:flushQueue", "listener.go:tokenize", "listener.go:runQueue", "listener.go:Receive", "syslog.go:New", "channel.go:Log"])

p("C116", "A line stream resynchronises at the next terminator",
  "With the LF and NUL transports, a connection that begins inside a frame (because the write of the frame failed in its middle, and its rest was written to the next connection) costs, besides the message that was cut, at most one message: the first pair that Receive returns from that connection is made of the rest of the frame, or of the rest and the message behind it (of more only if the bytes contain a closing bracket), and from then on Receive returns the messages that were sent, in order, each exactly once, with all their fields and without error, every one whose frame has arrived whole.",
  "every history of the sender, every place at which a frame is cut, all messages that a line can carry, every way the stream is cut into reads, every interleaving of the receiver, every queue length",
  "Where a stream of terminated messages finds back to the beginning of a message depends on what the rest of the cut message looks like together with the bytes behind it and on how they are cut into reads; tests try one cut, if any.",
  ["connector.go:flushQueue", "connector.go:runQueue", "listener.go:tokenize", "listener.go:Receive", "message-immutable.go:Parse", "transport.go:TransportLFEnded", "transport.go:TransportZeroEnded"])

p("C117", "Each write that fails inside a frame costs at most two messages",
  "With the LF and NUL transports, for messages without closing brackets: however often writes fail inside a frame, when what was written to each connection arrives, Receive returns from each connection a stretch of the messages that were sent, in order, each once, with all their fields and no error; the stretches of different connections do not overlap; and every message whose frame was written is in one of them, except those whose frame was cut by a change of connection and the one behind each of these, so at most two messages are missing for each connection but the first. A connection that begins inside a frame with two more frames behind it must begin with seven words, otherwise nothing is ever received from it.",
  "every history of the sender, any number of connections, every place at which frames are cut, all messages that a line can carry without closing brackets, every way the streams are cut into reads, every interleaving of the receiver, every queue length",
  "How many messages are lost when connections fail again and again depends on all the places at which frames were cut and on how the receiver finds back to the beginning of a message on each of them; a test breaks a connection once.",
  ["connector.go:flushQueue", "connector.go:runQueue", "listener.go:tokenize", "listener.go:Receive", "message-immutable.go:Parse", "transport.go:TransportLFEnded", "transport.go:TransportZeroEnded"])

p("C118", "Several loggers can share one sender: every line arrives with the name and the facility of its logger",
  "A program makes any number of loggers on one sender, with New and with SubSyslog, with different names, thresholds, facilities and hosts, and several goroutines write log lines on them at the same time, each on any of them. The receiver gets exactly one message for each line that passes the threshold of its logger, with the facility, the host, the process and the application name of that logger (the names given to New, SubSyslog and AppName joined with slashes), never those of another one; the messages of one goroutine come in the order of its program whatever loggers it uses, and a line that returned before another one began comes first. After End has returned all of them have been written, over however many connections.",
  "every number of loggers and of goroutines, every tree of SubSyslog calls, every list of log lines of each goroutine, every interleaving of the steps of their calls with each other and with the sender, every segmentation at the receiver, the three stream transports",
  "All interleavings of any number of goroutines and loggers with the sender, the network and the receiver; the example in the repository uses one logger and one sub-logger in one goroutine.",
  ["syslog.go:New", "syslog.go:SubSyslog", "syslog.go:Channel", "channel.go:AppName", "channel.go:Log", "channel.go:Write", "connector.go:Send", "connector.go:End", "connector.go:runQueue", "listener.go:Receive"])

with open(os.path.join(os.path.dirname(__file__), "..", "properties.jsonl"), "w") as f:
    for x in P:
        f.write(json.dumps(x, ensure_ascii=False) + "\n")
print(len(P))
