import Verif.Props.Logging
import Verif.Props.EndToEndMany
/-! # C73: from `Log` to `Receive`, over several connections and with the LF and NUL transports -/
namespace Syslog5424
open Spec

/-- The messages given to `Send` by a list of log lines. -/
theorem logged_says {host : Option Bytes} {pid out : Nat} {p : Int} {app : Bytes} {s0 s1 : Syslog}
    (h0 : Syslog.new host pid out p app = some s0) {cs : List LogCall} {ms : List Message}
    (hlog : logAll s0 cs = .ret (s1, ms.map fun m => (out, m))) : Each (SaysMessage host pid p app) (passing p cs) ms := by
  have happ : app ≠ [] := fun h => by rw [(C29_new host pid out p app).mpr h] at h0; cases h0
  obtain ⟨s0', e0, hall⟩ := C73_sent host pid out p app happ
  rw [h0] at e0
  simp only [Option.some.injEq] at e0
  subst e0
  obtain ⟨s2, ms', g1, g2⟩ := hall cs
  rw [hlog] at g1
  simp only [Out.ret.injEq, Prod.mk.injEq] at g1
  have hms : ms = ms' := by
    have := congrArg (List.map Prod.snd) g1.2
    simpa [List.map_map, Function.comp_def] using this
  rw [hms]; exact g2

theorem says_line {host : Option Bytes} {pid : Nat} {p : Int} {app : Bytes} {c : LogCall} {m : Message} {z : UInt8} (hpid : pid < 2 ^ 63)
    (h : SaysMessage host pid p app c m) (hl : LoggableLine z c) : TransmissibleLine z m :=
  ⟨says_good hpid h, by rw [h.timestamp]; exact hl.time, by rw [h.sd]; exact hl.sd, (hl.text _ h.message).1, (hl.text _ h.message).2⟩

/-- **C73**, LF and NUL transports: what `Receive` has returned from the connection of the sender is what the lines that pass
the threshold say, from the first one on, in order, each exactly once, at every moment at which the receiver has not
crashed. An early end of file does not matter. -/
theorem C73_lines_received_partial (t : Transport) (z : UInt8) (ht : t = .lfEnded ∧ z = 10 ∨ t = .zeroEnded ∧ z = 0)
    (host : Option Bytes) (pid out : Nat) (p : Int) (app : Bytes) (hpid : pid < 2 ^ 63) (s0 s1 : Syslog)
    (h0 : Syslog.new host pid out p app = some s0) (cs : List LogCall) (hcs : ∀ c ∈ cs, LoggableLine z c)
    (es : List Sender.Event) (hlog : logAll s0 cs = .ret (s1, (sent es).map fun m => (out, m)))
    (s : Sender.State) (hs : History t es s) (c : Sender.Conn) (r : List Sender.Conn) (hc : s.conns = c :: r)
    (lenQueue : Nat) (er : List Recv.Event) (q : Recv.State) (hq : Recv.run t lenQueue Recv.init er = some q) (hcr : q.crashed = false)
    (i : Nat) (k : Recv.Conn) (hi : q.conns[i]? = some k) (hwire : arrived (readsOf i er) <+: c.writes.flatten) :
    Each (Says host pid p app) ((passing p cs).take (ofConn i q.got).length) (ofConn i q.got) := by
  have g := logged_says h0 hlog
  have htr : ∀ m ∈ sent es, TransmissibleLine z m := by
    intro m hm
    obtain ⟨cl, h1, h2⟩ := each_mem g m hm
    exact says_line hpid h2 (hcs cl (List.mem_filter.mp h1).1)
  have main := C72_in_order_partial t z ht es s hs htr c r hc lenQueue er q hq hcr i k hi hwire
  exact each_trans (each_take g _) main (fun _ _ _ _ a b => says_received a b)

/-- **C73**, several connections (RFC 5425). If the connections of the sender were changed between two frames, everything that was sent was written, every connection of the sender arrived completely on a connection of the receiver, and
nothing is left to be received, then what `Receive` has returned, connection by connection, is what the lines that pass the
threshold say, each exactly once, in order. -/
theorem C73_all_connections_partial (host : Option Bytes) (pid out : Nat) (p : Int) (app : Bytes) (hpid : pid < 2 ^ 63) (s0 s1 : Syslog)
    (h0 : Syslog.new host pid out p app = some s0) (cs : List LogCall) (hcs : ∀ c ∈ cs, Loggable c)
    (es : List Sender.Event) (hlog : logAll s0 cs = .ret (s1, (sent es).map fun m => (out, m)))
    (hsize : ∀ m ∈ sent es, ∀ b, m.marshal = .ret (.ok b) → b.length < 2 ^ 62)
    (s : Sender.State) (hs : History .rfc5425 es s) (hcut : CutsBetween (frames .rfc5425 es) s.conns)
    (hall : (frames .rfc5425 es).flatten <+: wire s)
    (lenQueue : Nat) (er : List Recv.Event) (q : Recv.State) (hq : Recv.run .rfc5425 lenQueue Recv.init er = some q) (hcr : q.crashed = false)
    (f : Nat → Nat) (hf : ∀ (j : Nat) (c : Sender.Conn), s.conns[j]? = some c → ∃ k, q.conns[f j]? = some k ∧
      arrived (readsOf (f j) er) = c.writes.flatten ∧ k.pending = [] ∧ ofConn (f j) q.pipeline = []) :
    Each (Says host pid p app) (passing p cs) ((List.range s.conns.length).flatMap fun j => ofConn (f j) q.got) := by
  have g := logged_says h0 hlog
  have htr : ∀ m ∈ sent es, Transmissible m := by
    intro m hm
    obtain ⟨cl, h1, h2⟩ := each_mem g m hm
    exact ⟨says_intact hpid h2 (hcs cl (List.mem_filter.mp h1).1), hsize m hm⟩
  have main := C53_all_connections_partial es s hs hcut htr hall lenQueue er q hq hcr f hf
  exact each_trans g main (fun _ _ _ _ a b => says_received a b)

/-- **C73**, several connections, LF and NUL transports. -/
theorem C73_lines_all_connections_partial (t : Transport) (z : UInt8) (ht : t = .lfEnded ∧ z = 10 ∨ t = .zeroEnded ∧ z = 0)
    (host : Option Bytes) (pid out : Nat) (p : Int) (app : Bytes) (hpid : pid < 2 ^ 63) (s0 s1 : Syslog)
    (h0 : Syslog.new host pid out p app = some s0) (cs : List LogCall) (hcs : ∀ c ∈ cs, LoggableLine z c)
    (es : List Sender.Event) (hlog : logAll s0 cs = .ret (s1, (sent es).map fun m => (out, m)))
    (s : Sender.State) (hs : History t es s) (hcut : CutsBetween (frames t es) s.conns)
    (hall : (frames t es).flatten <+: wire s)
    (lenQueue : Nat) (er : List Recv.Event) (q : Recv.State) (hq : Recv.run t lenQueue Recv.init er = some q) (hcr : q.crashed = false)
    (f : Nat → Nat) (hf : ∀ (j : Nat) (c : Sender.Conn), s.conns[j]? = some c → ∃ k, q.conns[f j]? = some k ∧
      arrived (readsOf (f j) er) = c.writes.flatten ∧ k.pending = [] ∧ ofConn (f j) q.pipeline = []) :
    Each (Says host pid p app) (passing p cs) ((List.range s.conns.length).flatMap fun j => ofConn (f j) q.got) := by
  have g := logged_says h0 hlog
  have htr : ∀ m ∈ sent es, TransmissibleLine z m := by
    intro m hm
    obtain ⟨cl, h1, h2⟩ := each_mem g m hm
    exact says_line hpid h2 (hcs cl (List.mem_filter.mp h1).1)
  have main := C72_all_connections_partial t z ht es s hs hcut htr hall lenQueue er q hq hcr f hf
  exact each_trans g main (fun _ _ _ _ a b => says_received a b)

/-! The hypotheses are met by a program that writes a line with a final line feed twice; the second message is refused by the
first connection of the sender and written to the second. -/

/-- The program. -/
def demoLineLog : List LogCall := [⟨0, [], none, demoNow, b!"written\n", none⟩, ⟨0, [], none, demoNow, b!"written\n", some []⟩]

/-- The message sent. -/
def demoLineLogged : Message := ⟨160, demoNow, b!"host", b!"app", b!"42", b!"-", [], b!"written"⟩

/-- Its frame. -/
def demoLineLoggedFrame : Bytes := Transport.lfEnded.encode (match demoLineLogged.marshal with | .ret (.ok b) => b | _ => [])

/-- The sender. -/
def demoLineLogSent : List Sender.Event :=
  [.send demoLineLogged, .tick, .tau, .connect none, .tau, .tau, .write demoLineLoggedFrame.length none, .tau, .tau, .tau,
   .send demoLineLogged, .tick, .tau, .tau, .tau, .write 0 (some (.other 0)), .tau, .tau,
   .tick, .tau, .connect none, .tau, .tau, .write demoLineLoggedFrame.length none, .tau, .tau, .tau]

/-- The receiver. -/
def demoLineLogReceived : List Recv.Event :=
  [.tau, .acceptOk, .tau, .acceptOk, .read 1 { data := demoLineLoggedFrame }, .handoff 1,
   .read 0 { data := demoLineLoggedFrame.take 50 }, .read 0 { data := demoLineLoggedFrame.drop 50 }, .handoff 0]

example : ∃ s0 s1, Syslog.new (some b!"host") 42 3 166 b!"app" = some s0 ∧
    logAll s0 demoLineLog = .ret (s1, (sent demoLineLogSent).map fun m => (3, m)) :=
  ⟨_, { (Syslog.new (some b!"host") 42 3 166 b!"app").get rfl with channels := ((Syslog.new (some b!"host") 42 3 166 b!"app").get rfl).table }, rfl, by with_unfolding_all rfl⟩

theorem demoLineLog_loggable : ∀ c ∈ demoLineLog, LoggableLine 10 c := by
  have hv : demoNow.Valid := by constructor <;> decide +kernel
  have ht : ∀ t, IsTrimOf t b!"written\n" → t ≠ [] ∧ (10 : UInt8) ∉ t := by
    intro t h
    have : t = b!"written" := by rw [trim_unique h]; decide +kernel
    subst this; decide
  intro c hc
  simp only [demoLineLog, List.mem_cons, List.not_mem_nil, or_false] at hc
  rcases hc with rfl | rfl
  · exact ⟨hv, rfl, ht⟩
  · exact ⟨hv, rfl, ht⟩

example (s : Sender.State) (h : History .lfEnded demoLineLogSent s) : CutsBetween (frames .lfEnded demoLineLogSent) s.conns :=
  cuts_of_clean h (by
    intro nb x h
    simp only [demoLineLogSent, List.mem_cons, List.not_mem_nil, or_false, Sender.Event.write.injEq, reduceCtorEq, false_or, and_false] at h
    exact h.1)

example : ∃ s c0 c1, History .lfEnded demoLineLogSent s ∧ s.conns = [c0, c1] ∧ (frames .lfEnded demoLineLogSent).flatten <+: wire s ∧
    c0.writes.flatten = arrived (readsOf 0 demoLineLogReceived) ∧ c1.writes.flatten = arrived (readsOf 1 demoLineLogReceived) := by
  refine ⟨⟨[], [⟨[demoLineLoggedFrame, []], false⟩, ⟨[demoLineLoggedFrame], false⟩], true, false, [.write 0], false, false, false, false, .select⟩,
    ⟨[demoLineLoggedFrame, []], false⟩, ⟨[demoLineLoggedFrame], false⟩, by decide +kernel, rfl, ?_, ?_, ?_⟩ <;> decide +kernel

example : (match Recv.run .lfEnded 0 Recv.init demoLineLogReceived with
      | some q => !q.crashed && q.pipeline.isEmpty && decide ((ofConn 0 q.got).length = 1) && decide ((ofConn 1 q.got).length = 1) &&
        decide (q.conns.length = 2) && q.conns.all fun k => k.pending.isEmpty
      | none => false) = true := by decide +kernel

end Syslog5424
