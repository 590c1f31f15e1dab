# Formal model of nathanaelle/syslog5424 (Lean 4)

(Generated by `tools/gen_design.py` from `tools/design_head.md`, the notes and the axioms.)

## Layout

* `lean/Verif/Go.lean` – Go run-time notions: `Out` (return / panic / hang), slices with visible bytes and spare
  capacity, `strconv`.
* `lean/Verif/Model/*.lean` – the model, one file per group of Go files. Every definition cites the Go file and lines it
  models; simplifications are in the same comment or in the head of the file.
* `lean/Verif/Spec/*.lean` – small specifications that do not mention the functions of the model (RFC 5424 grammar, white
  space, decimal numbers, the Gregorian calendar, frames, what arrives on a connection, ...). For the transition systems
  they are written on the events of a history (which messages were sent, which reads arrived, which errors happened).
* `lean/Verif/Lemmas/*.lean` – helper lemmas and invariants.
* `lean/Verif/Props/*.lean` – the property theorems, named `Cnn_...`, with non-vacuity examples beside them.
* `properties.jsonl` (`tools/gen_properties.py`), `MANIFEST.json` (`tools/gen_manifest.py`), `seeded/LOG.jsonl` (wrong
  programs tried against the theorems), `tools/coverage.py` (which Go functions the model cites).

Conventions. A theorem `Cnn_..._partial` proves the part of property Cnn that is true of the code, its comment says what is
missing. A theorem `Cnn_..._violated` proves that the code does *not* satisfy part of the English statement: the code is
modelled as it is, not as it should be. Some are witnesses (one history), most are universal (everything of a certain
shape goes wrong). A property with one of these is `partial` in the manifest.

## Trusted base

* Lean's kernel (4.33.0), and the statement of the theorems with the definitions of `Model` and `Spec` they mention.
* The axioms `propext`, `Classical.choice` and `Quot.sound` of Lean, nothing else; the appendix lists them per theorem.
  No axiom is added, nothing is evaluated by compiled code (`decide +kernel` is reduction in the kernel).
* That the model says what the Go code does. It was written by reading; nothing was executed. What the model contains and
  what it leaves out is the next section.
* The Go language and library facts listed below.

### What is modelled

All the functions of the packages `syslog5424`, `sdata` and `sdata/timequality` are modelled, function by function, except
those listed under "not modelled" (`tools/coverage.py` prints the table).

| Go | Lean |
|---|---|
| `priority.go` | `Model/Priority.lean` |
| packages unicode and utf8, as far as used | `Model/Utf8.lean` |
| `helpers.go` | `Model/Helpers.lean` |
| `message.go` | `Model/Message.lean`, clock functions in `Model/Clock.lean`, timestamps in `Model/Time.lean` |
| `message-immutable.go` | `Model/Parse.lean` |
| `transport.go` | `Model/Transport.lean` |
| `sdata/tokens.go` | `Model/Tokens.lean` |
| `sdata/list.go`, `sd-unknown.go`, `sd-generic.go`, `timequality/tq.go` | `Model/SData.lean`, `Model/Meta.lean`; `append` on shared arrays in `Model/Alias.lean` |
| `sdata/structured-data-encoder.go`, `structured-data.go` | `Model/SDEncoder.lean` |
| `sdata/structured-data-decoder.go` | `Model/Meta.lean` |
| `sdata/exported-testing.go` | `Model/TestKit.lean` |
| the `_test.go` files | `Tests/Repo.lean`: every deterministic assertion, evaluated on the model (tests of the model, not proofs) |
| `syslog.go`, `channel.go` | `Model/Syslog.lean`, with the interleavings of concurrent `Channel` calls |
| `connector.go` | `Model/Sender.lean`: transition system, one event per step of a goroutine; `Model/Calls.lean`: `Send` and `End` step by step (C92) |
| `listener.go` | `Model/Tokenizer.lean` (the read loop, with the memory of its buffer), `Model/Footprint.lean` (the places a call reads or writes), `Model/Receiver.lean` (goroutines and channels), `Model/Stepwise.lean` (the same, message by message, C93) |
| `dialer.go`, `connector-*.go`, `listener-*.go` | `Model/Net.lean`, `Model/Dialed.lean`, `Model/Datagram.lean`; the operating system is a parameter |

The composition of sender, byte stream and receiver is in `Spec/EndToEnd.lean` and `Props/EndToEnd.lean`.

### Modelling decisions

* Bytes are `UInt8`, strings and byte slices are `List UInt8`.
* A Go panic is the value `Out.panic`; a loop that would never end is `Out.hang` (fuel exhausted, with a theorem that the
  fuel is always sufficient where the property is termination).
* A non-nil slice is `Slice {vis, spare}`: `spare` are the bytes between `len` and `cap`, because `s[i:j]` is legal up to
  `cap` (observable in `tqdef.Found`). A nilable slice is `Option Slice`.
* `int` is `Int`; 64-bit wrap-around is modelled where it can be reached (RFC 5425 header sum, `time.Duration`,
  `strconv.ParseInt`). `Priority` masks are computed on 64-bit two's complement.
* Errors are values of `Err`; the texts of those of the main package and of sdata/tokens.go are in `Model/ErrorText`, which
  contains a model of `strconv.Quote` (the table of printable runes above U+00FF is a parameter).
* Maps are lists of entries with distinct keys in an arbitrary order; theorems quantify over the order.
* Goroutines are explicit state machines whose steps are the atomic actions between synchronisation points; a history is
  any sequence of steps and of answers of the environment (`Connect`, `Write`, `Accept`, `Read`, ticks). Theorems quantify
  over all histories, hence over all schedules, failures and crash points.
* Liveness is stated as: in every reachable state some step is possible, a measure bounds the number of steps, or the goal
  can be reached without any failure, without fairness assumptions; C82 and later state it over endless executions with
  explicit fairness hypotheses (`Verif/Spec/Fair.lean`).
* The reflective encoder works on well typed pairs `GoType`, `GoVal t`.
* A `time.Time` is its civil fields and offset; for the clock functions it is an instant seen through an arbitrary zone.

### Facts about Go and the system that the model takes for granted

* `append`, slicing, `copy`, channel operations, `defer`, closing a closed channel and method calls on nil interfaces
  behave as the Go specification says; a method call on a nil `*net.TCPConn` (connector-tcp.go:85) panics.
* Interleavings are sequentially consistent. Data races of the code (`len(*c.queue)` without the lock, `accepted`,
  `Syslog.channels`) can only behave worse.
* `net.Buffers.WriteTo` calls `Write` once per buffer and consumes what was written; `Write` reports an error when it
  accepts less than it was given.
* `time.Format`/`time.Parse` for the two layouts used, `time.Unix`, `time.Date`, `Time.Add`, `strconv.Atoi`,
  `strconv.ParseInt`, `strconv.Quote`, `strings.Split`, `strings.TrimRightFunc`, `unicode.IsSpace`, `bytes.IndexByte`, `sort.Sort`, `fmt`'s
  `%v` of scalars (a parameter) are modelled from their documentation and source.
* Converting a NaN or out of range float to `int` gives the minimum, as on amd64 (`tq.go`, capacity of `make`).
* The letters and digits of Unicode above U+00FF (struct tags) are an opaque table, about which nothing is assumed. A `ReadFrom` that fails returns no bytes; a datagram larger than the buffer is cut.

### Not modelled

* The texts of the errors of sdata/errors.go:31-52 (they print Go types), the names of transports and of the registry, `Addr`,
  `Options`/`SetOptions` (never called), the texts of the errors of `DoTest`, `Message.Now`'s reading of the clock (any time).
* Socket options, `SetLinger`, buffers of the kernel, TLS, DNS (a parameter).
* User implementations of `Transport` that
  change the buffer they are given or have a state (others: C86), and of `StructuredData` beyond the result of
  `Marshal5424`.
* Memory use, but for the queues and buffers (C88).
* The Go memory model below sequential consistency; C87 states the absence of data races of the sender after it, C90 the places that the accessors of a received message share with the receiver.

## The properties

For each property: what is modelled, how it is proved. "Invariant" means an inductive invariant over all histories.
