import Verif.Model.Parse
import Verif.Model.Syslog
import Verif.Model.Clock
/-!
# The tests of the repository, run on the model

Not proofs of anything about all inputs: every deterministic assertion of the `_test.go` files of the repository is
evaluated on the model, as a check that the model computes what the authors of the code observed. (The tests that need a
socket, burst_test.go and example_02 to example_04, are represented by the bytes they put on the wire and by what is
decoded from them.)
-/
namespace Syslog5424.RepoTests

/-- The registry with `timequality` imported, as in the tests of the main package. -/
def reg : List SDID := [tqSDID]

/-! ## priority_test.go -/

/-- `TestPriority` (priority_test.go:13-47): three texts are refused, two are read and printed back. -/
example : ([b!"foo.bar", b!"kern.emerg.info", b!"kern"].all fun s => (Priority.set 0 s).2.isSome) = true := by decide +kernel
example : (Priority.set 0 b!"kern.emerg").2 = none ∧ Priority.string (Priority.set 0 b!"kern.emerg").1 = .ret b!"kern.emerg" ∧
    (Priority.set 0 b!"user.debug").2 = none ∧ Priority.string (Priority.set 0 b!"user.debug").1 = .ret b!"user.debug" ∧
    (Priority.set 0 b!"user.debug").1 = 15 := by decide +kernel

/-- `TestPriorityMarshal5424` (priority_test.go:49-66): the first 256 priorities. -/
example : ((List.range 256).all fun i => Priority.marshal (i : Int) == b!"<" ++ natDec i ++ b!">1") = true := by decide +kernel

/-- The assertions of the benchmarks (priority_test.go:88-121). -/
example : (Priority.set 0 b!"cron.warning").2 = none ∧ Priority.string 15 = .ret b!"user.debug" ∧
    Priority.marshal 15 = b!"<15>1" ∧ Priority.unmarshal 0 b!"<15>1" = (15, none) := by decide +kernel

/-! ## transport_test.go -/

/-- `transportPrefixTester` and `transportSuffixTester` (transport_test.go:62-76): nil and empty are not distinguished
(`bytes.Equal`), the errors are. -/
def agrees (got : Out Strip) (data rest : Bytes) (err : Option Err) : Bool :=
  match got with
  | .ret (d, r, e) => (Slice.ofNil d).vis == data && (Slice.ofNil r).vis == rest && e == err
  | _ => false

def prefixTester (t : Transport) (atEOF : Bool) (buffer : Option Bytes) (data rest : Bytes) (err : Option Err) : Bool :=
  agrees (t.prefixStrip (buffer.map Slice.exact) atEOF) data rest err
def suffixTester (t : Transport) (atEOF : Bool) (buffer : Option Bytes) (data rest : Bytes) (err : Option Err) : Bool :=
  agrees (t.suffixStrip (buffer.map Slice.exact) atEOF) data rest err

def msg : Bytes := b!"<0>1 1970-01-01T01:00:00Z bla bli blu blo - message"

/-- `TestTransportZeroEnded` (transport_test.go:9-24). -/
example :
    let buf1 := msg ++ [0] ++ msg ++ [0]
    let buf2 := msg ++ [0]
    (prefixTester .zeroEnded false none [] [] none && suffixTester .zeroEnded false none [] [] none &&
    prefixTester .zeroEnded false (some buf1) buf1 [] none && suffixTester .zeroEnded false (some buf1) msg buf2 none &&
    suffixTester .zeroEnded false (some buf2) msg [] none && suffixTester .zeroEnded false (some msg) msg [] none &&
    suffixTester .zeroEnded true (some msg) msg [] none) = true := by decide +kernel

/-- `TestTransportLFEnded` (transport_test.go:26-40). -/
example :
    let buf1 := msg ++ [10] ++ msg ++ [10]
    let buf2 := msg ++ [10]
    (suffixTester .lfEnded false none [] [] none && prefixTester .lfEnded false none [] [] none &&
    prefixTester .lfEnded false (some buf1) buf1 [] none && suffixTester .lfEnded false (some buf1) msg buf2 none &&
    suffixTester .lfEnded false (some buf2) msg [] none && suffixTester .lfEnded false (some msg) msg [] none &&
    suffixTester .lfEnded true (some msg) msg [] (some .incomplete)) = true := by decide +kernel

/-- `TestTransportRFC5425` (transport_test.go:42-60). -/
example :
    let buf1 := b!"51 " ++ msg ++ b!"51 " ++ msg
    let buf2 := b!"51 " ++ msg
    let cut (b : Bytes) := b.take (b.length - 10)
    (suffixTester .rfc5425 false none [] [] none && suffixTester .rfc5425 false (some msg) msg [] none &&
    suffixTester .rfc5425 true (some msg) msg [] none && prefixTester .rfc5425 false none [] [] none &&
    prefixTester .rfc5425 false (some buf1) msg buf2 none && prefixTester .rfc5425 false (some buf2) msg [] none &&
    prefixTester .rfc5425 false (some (cut buf2)) [] [] none &&
    prefixTester .rfc5425 true (some (cut buf1)) msg (cut buf2) none &&
    prefixTester .rfc5425 true (some (cut buf2)) (cut msg) [] (some .incomplete)) = true := by decide +kernel

/-! ## message_test.go -/

/-- `zEpoch()` (message_test.go:32-35). -/
def zEpoch : Time := ⟨1970, 1, 1, 1, 0, 0, 0, 0⟩

/-- `TestMessage` (message_test.go:17-30,37-45). -/
example : Message.string ⟨0, zEpoch, b!"-", b!"-", b!"-", b!"-", [], []⟩ = .ret b!"<0>1 1970-01-01T01:00:00Z - - - - -" := by
  decide +kernel
example : Message.string ⟨0, zEpoch, b!"-", b!"-", b!"-", b!"-", [.tq ⟨true, true, none⟩], []⟩ =
    .ret b!"<0>1 1970-01-01T01:00:00Z - - - - [timeQuality tzKnown=\"1\" isSynced=\"1\"]" := by decide +kernel
example : Message.string ⟨24, zEpoch, b!"bla", b!"bli", b!"blu", b!"blo", [], b!"message"⟩ =
    .ret b!"<24>1 1970-01-01T01:00:00Z bla bli blu blo - message" := by decide +kernel

/-! ## message-immutable_test.go -/

/-- The body of the loop of `Test_MessageImmutable_Parse` (message-immutable_test.go:25-44). -/
def parseTester (t : Bytes) : Bool :=
  match parse (some (Slice.exact t)) none false with
  | .ret (m, _, none) => m.string == t &&
    (match (do let w ← m.writable reg; w.string) with | .ret s => s == t | _ => false)
  | _ => false

/-- `Test_MessageImmutable_Parse` (message-immutable_test.go:10-44). -/
example : ([
    b!"<0>1 1970-01-01T01:00:00+01:00 - - - - -",
    b!"<12>1 1970-01-01T01:00:00Z - - - - -",
    b!"<0>1 1970-01-01T01:00:00Z bla bli blu blo - message",
    b!"<234>1 1970-01-01T01:00:00+01:00 bla bli blu blo - message",
    b!"<0>1 1970-01-01T01:00:00Z - - - - [timeQuality tzKnown=\"1\" isSynced=\"1\"]",
    b!"<34>1 2003-10-11T22:14:15.003Z mymachine.example.com su - ID47 - \\xEF\\xBB\\xBF'su root' failed for lonvick on /dev/pts/8",
    b!"<165>1 2003-08-24T05:14:15.000003-07:00 192.0.2.1 myproc 8710 - - %% It's time to make the do-nuts.",
    b!"<165>1 2003-10-11T22:14:15.003Z mymachine.example.com evntslog - ID47 [exampleSDID@32473 iut=\"3\" eventSource=\"Application\" eventID=\"1011\"] \\xEF\\xBB\\xBFAn application event log entry...",
    b!"<165>1 2003-10-11T22:14:15.003Z mymachine.example.com evntslog - ID47 [exampleSDID@32473 iut=\"3\" eventSource=\"Application\" eventID=\"1011\"][examplePriority@32473 class=\"high\"]",
    b!"<165>1 2003-10-11T22:14:15.003Z mymachine.example.com evntslog - ID47 [exampleSDID@32473 iut=\"3\" eventSource=\"Application\" eventID=\"1011\"][exampleEscape@32473 text=\"some[data\\] here\"]"
    ].all parseTester) = true := by decide +kernel

set_option synthInstance.maxSize 1000
set_option synthInstance.maxHeartbeats 400000
/-- What `Test_MessageImmutable_Values` (message-immutable_test.go:46-177) reads of a message. -/
def values (t : Bytes) : Option ((Priority × Time) × (Bytes × Bytes × Bytes × Bytes) × (Res Bytes × Nat × Bool) × Bytes) :=
  match parse (some (Slice.exact t)) none false with
  | .ret (m, _, none) =>
    match m.priority, m.timeStamp, m.hostname, m.appName, m.procID, m.msgID, m.structuredData reg, m.textOf with
    | .ret p, .ret ts, .ret h, .ret a, .ret pr, .ret mi, .ret sd, .ret tx =>
      some ((p, ts), (h, a, pr, mi), (sdListMarshal sd, sd.length, match sd with | [.tq _] => true | _ => false), tx)
    | _, _, _, _, _, _, _, _ => none
  | _ => none

example : values b!"<12>1 1970-01-01T01:00:00Z - - - - -" =
    some ((12, ⟨1970, 1, 1, 1, 0, 0, 0, 0⟩), (b!"-", b!"-", b!"-", b!"-"), (.ret (.ok b!"-"), 0, false), b!"") := by decide +kernel

/-- The instant is the one of 12:14:15.000003 UTC: five o'clock, seven hours behind. -/
example : values b!"<165>1 2003-08-24T05:14:15.000003-07:00 192.0.2.1 myproc 8710 foobar [timeQuality tzKnown=\"1\" isSynced=\"1\"] %% It's time to make the do-nuts." =
    some ((165, ⟨2003, 8, 24, 5, 14, 15, 3000, -25200⟩), (b!"192.0.2.1", b!"myproc", b!"8710", b!"foobar"),
      (.ret (.ok b!"[timeQuality tzKnown=\"1\" isSynced=\"1\"]"), 1, true), b!"%% It's time to make the do-nuts.") := by decide +kernel

/-- `LogUSER | LogWARNING` and `LogLOCAL4 | LogNOTICE` (message-immutable_test.go:66,128). -/
example : Priority.or 8 4 = 12 ∧ Priority.or 160 5 = 165 := by decide +kernel

/-- The benchmarks check that there is no error (message-immutable_test.go:212-293). -/
example : ([
    b!"<0>1 1970-01-01T01:00:00Z - - - - [timeQualitat tzKnown=\"1\" isSynced=\"1\"]",
    b!"<165>1 2003-10-11T22:14:15.003Z mymachine.example.com evntslog - ID47 [exampleSDID@32473 iut=\"3\" eventSource=\"Application\" eventID=\"1011\"][examplePriority@32473 class=\"high\"] Some log message with structured data",
    b!"<190>1 2016-02-21T01:19:11+00:00 batch6sj - - - [meta sequenceId=\"21881798\" x-group=\"37051387\"][origin x-service=\"tracking\"] metascutellar conversationalist",
    b!"<191>1 2018-12-31T23:59:59.999999-23:59 abcdefghilm abcdef abcd ab [an@id key1=\"val1\" key2=\"val2\"][another@id key1=\"val1\"] Some message \"GET\""
    ].all fun t => match parse (some (Slice.exact t)) none false with | .ret (_, _, none) => true | _ => false) = true := by decide +kernel

/-! ## sdata/structured-data_test.go -/

/-- A map of strings to strings given to `GenericSD`, and its identifier. -/
def mapSD (id : Bytes) (l : List (Bytes × Bytes)) : SD := .generic id (.map (some id) (.scalar true) (some l))

/-- The three `genericTest` (sdata/structured-data_test.go:53-66). -/
example : (mapSD b!"exampleSDID@32473" [(b!"iut", b!"3"), (b!"eventSource", b!"Application"), (b!"eventID", b!"1011")]).marshal =
    .ret (.ok b!"[exampleSDID@32473 eventID=\"1011\" eventSource=\"Application\" iut=\"3\"]") := by rfl
example : (mapSD b!"exampleSDID@32473" [(b!"iut", b!"3"), (b!"eventSource", b!"[Application]"), (b!"eventID", b!"1011")]).marshal =
    .ret (.ok b!"[exampleSDID@32473 eventID=\"1011\" eventSource=\"[Application\\]\" iut=\"3\"]") := by rfl
example : (SD.generic b!"origin" (.map (some b!"origin") (.slice (.scalar true))
      (some [(b!"ip", some [b!"192.0.2.1", b!"192.0.2.129"])]))).marshal =
    .ret (.ok b!"[origin ip=\"192.0.2.1\" ip=\"192.0.2.129\"]") := by rfl

/-- The two `TestInvalidUnmarshal` (sdata/structured-data_test.go:67-68), with an empty registry. -/
example : ([b!"[ exampleSDID@32473 iut=\"3\" eventSource=\"Application\" eventID=\"1011\"]",
    b!"[exampleSDID iut=\"3\" eventSource =\"Application\" eventID=\"1011\"]"].all fun t =>
      match registryFound [] (Slice.exact t) with | .ret none => true | _ => false) = true := by decide +kernel

/-! ## sdata/timequality/tq_test.go -/

/-- `TestValid` (sdata/exported-testing.go:67-88), on `TQ`. -/
def tqValid (orig : Bytes) (obj : TimeQuality) (enc : Bytes) : Bool :=
  match tqFound (Slice.exact orig) with
  | .ret (some (.tq t)) => t == obj && (SD.tq t).marshal == .ret (.ok enc)
  | _ => false

/-- sdata/timequality/tq_test.go:14-24. -/
example : (tqValid b!"[timeQuality]" ⟨false, false, none⟩ b!"[timeQuality]" &&
    tqValid b!"[timeQuality tzKnown=\"0\" isSynced=\"0\"]" ⟨false, false, none⟩ b!"[timeQuality]" &&
    tqValid b!"[timeQuality tzKnown=\"0\"]" ⟨false, false, none⟩ b!"[timeQuality]" &&
    tqValid b!"[timeQuality tzKnown=\"1\" isSynced=\"0\"]" ⟨true, false, none⟩ b!"[timeQuality tzKnown=\"1\"]" &&
    tqValid b!"[timeQuality tzKnown=\"1\"]" ⟨true, false, none⟩ b!"[timeQuality tzKnown=\"1\"]" &&
    tqValid b!"[timeQuality tzKnown=\"1\" isSynced=\"1\"]" ⟨true, true, none⟩ b!"[timeQuality tzKnown=\"1\" isSynced=\"1\"]" &&
    tqValid b!"[timeQuality tzKnown=\"1\" isSynced=\"1\" syncAccuracy=\"60000000\"]" ⟨true, true, some 60000000⟩
      b!"[timeQuality tzKnown=\"1\" isSynced=\"1\" syncAccuracy=\"60000000\"]") = true := by decide +kernel

/-- sdata/timequality/tq_test.go:25-38. -/
example : ([b!"timequality]", b!"[timequality]", b!"[timequality", b!"[ timeQuality]", b!"[timeQuality invalid=\"1\"]",
    b!"[timeQuality invalid=1]", b!"[timeQuality invalid=\"1]", b!"[timeQuality tzKnown =\"1\"]",
    b!"[timeQuality tzKnown=\"a\"]", b!"[timeQuality tzKnown=\"1\" isSynced=\"a\"]",
    b!"[timeQuality tzKnown=\"0\" isSynced=\"1\"]", b!"[timeQuality tzKnown=\"1\"isSynced=\"1\"]",
    b!"[timeQuality tzKnown=\"1\" isSynced=\"1\" syncAccuracy=\"a\"]",
    b!"[timeQuality tzKnown=\"1\" isSynced=\"0\" syncAccuracy=\"1000\"]"].all fun t =>
      match tqFound (Slice.exact t) with | .ret none => true | _ => false) = true := by decide +kernel

/-- sdata/timequality/tq_test.go:39-42. -/
example : ([(⟨false, true, none⟩ : TimeQuality), ⟨false, true, some 100⟩, ⟨false, false, some 100⟩, ⟨true, false, some 100⟩].all
    fun t => (SD.tq t).marshal == .ret (.error .invalidTimeQuality)) = true := by decide +kernel

/-! ## example_01-client_test.go and burst_test.go: what is put on the wire -/

/-- `Now` in the examples (example_01-client_test.go:9-12, burst_test.go:48-51). -/
def now2014 : Time := ⟨2014, 12, 20, 14, 4, 0, 0, 0⟩

/-- The texts a list of calls of `Send` puts on the wire, before framing. -/
def texts (s : Sent) : List (Out Bytes) := s.map fun p => p.2.string

/-- `ExampleDial_stdio` (example_01-client_test.go:8-43): the informational message is not logged, the two others are;
`someSD` is a struct with two exported fields. -/
def exampleDial : Out (List (Out Bytes)) :=
  match Syslog.new (some b!"host") 4242 0 (Priority.or 24 4) b!"test-app" with
  | none => .panic
  | some s => do
    let conf ← s.testMode.subSyslog b!"configuration"
    let (conf, info) ← conf.channel 6
    let (conf, err) ← conf.channel 3
    let (_, err') ← conf.channel 3
    return texts (info.loggerPrint now2014 b!"INFO : " b!"" b!"doing some stuff but not logged" ++
      err.loggerPrint now2014 b!"ERR : " b!"" b!"doing some stuff" ++
      err'.log now2014 b!"another message with structured data"
        [.generic b!"someSD@32473" (.struct (some b!"someSD@32473")
          [⟨b!"Message", b!"", true, .scalar true, b!"some message"⟩, ⟨b!"Errno", b!"", true, .scalar false, b!"42"⟩])])

example : exampleDial = .ret [
    .ret b!"<27>1 2014-12-20T14:04:00Z localhost test-app/configuration 1234 - - ERR : doing some stuff",
    .ret b!"<27>1 2014-12-20T14:04:00Z localhost test-app/configuration 1234 - [someSD@32473 Message=\"some message\" Errno=\"42\"] another message with structured data"] := by
  decide +kernel

/-- The client of burst_test.go:70-103 sends `burstPacket` (burst_test.go:13), and with each of the three transports
the receiver reads it back, whatever follows it. -/
def burstPacket : Bytes := b!"<27>1 2014-12-20T14:04:00Z localhost client-app 1234 - - ERR : doing some stuff"

example : (match Syslog.new (some b!"host") 4242 0 (Priority.or 24 4) b!"client-app" with
    | none => .panic
    | some s => do
      let (_, err) ← s.testMode.channel 3
      return texts (err.loggerPrint now2014 b!"ERR : " b!"" b!"doing some stuff")) = Out.ret [.ret burstPacket] := by decide +kernel

example : ([Transport.zeroEnded, .lfEnded, .rfc5425].all fun t =>
    match parse (some (Slice.exact (t.encode burstPacket ++ t.encode burstPacket))) (some t) false with
    | .ret (m, some r, none) => m.string == burstPacket && r.vis == t.encode burstPacket
    | _ => false) = true := by decide +kernel

end Syslog5424.RepoTests
