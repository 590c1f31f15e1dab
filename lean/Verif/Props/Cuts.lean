import Verif.Props.EndToEndMany
/-! # C37, C53: what happens at a reconnection -/
namespace Syslog5424
open Spec

/-- C37: if what was written to the connections before is a number of whole frames, a connection carries the frames that
follow, whole, and at most the beginning of one more. Missing: a connection that was changed inside a frame, see
`C37_reconnect_violated`. -/
theorem C37_boundary_partial (t : Transport) (es : List Sender.Event) (s : Sender.State) (h : History t es s)
    (pre post : List Sender.Conn) (c : Sender.Conn) (hc : s.conns = pre ++ c :: post)
    (n : Nat) (hcut : bytesOn pre = ((frames t es).take n).flatten) :
    ∃ j p, c.writes.flatten = (((frames t es).drop n).take j).flatten ++ p ∧
      (p = [] ∨ ∃ f, (frames t es)[n + j]? = some f ∧ p <+: f) := by
  have hp := C34_prefix t es s h
  have hw : wire s = bytesOn pre ++ (c.writes.flatten ++ bytesOn post) := by
    show bytesOn s.conns = _
    rw [hc, bytesOn_append]; simp [bytesOn]
  have hf : (frames t es).flatten = ((frames t es).take n).flatten ++ ((frames t es).drop n).flatten := by
    rw [← List.flatten_append, List.take_append_drop]
  rw [hw, hcut, hf, List.prefix_append_right_inj] at hp
  obtain ⟨j, p, h1, h2⟩ := prefix_whole _ _ ((List.prefix_append _ _).trans hp)
  exact ⟨j, p, h1, by simpa [List.getElem?_drop] using h2⟩

/-- C37: what the connections of a sender carry, in general: each of them goes on where the one before stopped, also in
the middle of a frame. -/
theorem C37_goes_on (t : Transport) (es : List Sender.Event) (s : Sender.State) (h : History t es s)
    (pre post : List Sender.Conn) (c : Sender.Conn) (hc : s.conns = pre ++ c :: post) :
    c.writes.flatten <+: (frames t es).flatten.drop (bytesOn pre).length := by
  have hp := C34_prefix t es s h
  have hw : wire s = bytesOn pre ++ (c.writes.flatten ++ bytesOn post) := by
    show bytesOn s.conns = _
    rw [hc, bytesOn_append]; simp [bytesOn]
  rw [hw] at hp
  obtain ⟨x, hx⟩ := hp
  rw [← hx, List.append_assoc, List.drop_left, List.append_assoc]
  exact List.prefix_append _ _

/-- A stream whose first word is not a number gives nothing. -/
theorem no_number {b hdr x : Bytes} (hs : (32 : UInt8) ∉ hdr) (hn : ¬ ∃ l, ReadsInt hdr l) (hb : b <+: hdr ++ b!" " ++ x) :
    ¬ ∃ hdr' p suffix, Ready b hdr' p suffix := by
  rintro ⟨hdr', p, suffix, hr⟩
  obtain ⟨y, hy⟩ := hb
  rw [hr.bytes] at hy
  obtain ⟨rfl, _⟩ := first_space hr.header hs (r := p ++ suffix ++ y) (r' := x) (by rw [← hy]; simp)
  exact hn ⟨_, hr.length⟩

/-- C80: over an RFC 5425 connection whose first word is not a number nothing is ever received, not even an error,
whatever follows. -/
theorem C80_no_number (lenQueue : Nat) (er : List Recv.Event) (q : Recv.State)
    (hq : Recv.run .rfc5425 lenQueue Recv.init er = some q) (hcr : q.crashed = false)
    (i : Nat) (k : Recv.Conn) (hi : q.conns[i]? = some k) (word x : Bytes) (hs : (32 : UInt8) ∉ word) (hn : ¬ ∃ l, ReadsInt word l)
    (hwire : arrived (readsOf i er) <+: word ++ b!" " ++ x) : ofConn i q.got = [] := by
  obtain ⟨b, tok, g1, g2⟩ := C44_order _ _ er q hq hcr i k hi
  obtain ⟨ps, h1, h2⟩ := C80_decodes _ b tok g1
  generalize tok.pending = rest at h1
  cases h1 with
  | take hr _ => exact absurd ⟨_, _, _, hr⟩ (no_number hs hn hwire)
  | stop _ =>
    generalize ho : tok.out = o at h2 g2
    cases h2
    have := congrArg List.length g2
    simp only [List.length_append, List.length_nil] at this
    exact List.length_eq_zero_iff.mp (by omega)

/-- C53 is violated by a reconnection inside a frame: if a write was cut (after `part`), and what is left of the frame does
not begin with a number, then nothing is received from the next connection: this message and all that are written behind it
are lost, without an error on either side. -/
theorem C53_cut_violated (es : List Sender.Event) (s : Sender.State) (hs : History .rfc5425 es s)
    (pre post : List Sender.Conn) (c : Sender.Conn) (hc : s.conns = pre ++ c :: post)
    (n : Nat) (part word x : Bytes) (hfr : (frames .rfc5425 es)[n]? = some (part ++ word ++ b!" " ++ x))
    (hcut : bytesOn pre = ((frames .rfc5425 es).take n).flatten ++ part)
    (hspace : (32 : UInt8) ∉ word) (hnum : ¬ ∃ l, ReadsInt word l)
    (lenQueue : Nat) (er : List Recv.Event) (q : Recv.State) (hq : Recv.run .rfc5425 lenQueue Recv.init er = some q) (hcr : q.crashed = false)
    (i : Nat) (k : Recv.Conn) (hi : q.conns[i]? = some k) (hwire : arrived (readsOf i er) <+: c.writes.flatten) :
    ofConn i q.got = [] := by
  have hw := C37_goes_on .rfc5425 es s hs pre post c hc
  obtain ⟨hlt, hfr⟩ := List.getElem?_eq_some_iff.mp hfr
  have hf : (frames .rfc5425 es).flatten = ((frames .rfc5425 es).take n).flatten ++ ((frames .rfc5425 es).drop n).flatten := by
    rw [← List.flatten_append, List.take_append_drop]
  have e : (frames .rfc5425 es).flatten.drop (bytesOn pre).length = word ++ b!" " ++ (x ++ ((frames .rfc5425 es).drop (n + 1)).flatten) := by
    rw [hf, List.drop_eq_getElem_cons hlt, hfr, hcut, List.flatten_cons]
    have : ∀ a : Bytes, a ++ (part ++ word ++ b!" " ++ x ++ ((frames .rfc5425 es).drop (n + 1)).flatten) =
      (a ++ part) ++ (word ++ b!" " ++ (x ++ ((frames .rfc5425 es).drop (n + 1)).flatten)) := by intro a; simp
    rw [this, List.drop_left]
  rw [e] at hw
  exact C80_no_number lenQueue er q hq hcr i k hi word _ hspace hnum (hwire.trans hw)

/-! The hypotheses of the theorems over several connections are met by a sender with a write that is cut by `ENOBUFS` and
completed on the same connection, and a connection that fails between the two messages; those of `C53_cut_violated` by a
sender whose connection fails inside a message. -/

/-- The first. -/
def demoBetween : List Sender.Event :=
  [.send demoMsg, .tick, .tau, .connect none, .tau, .tau, .write 40 (some .nobufs), .tau,
   .tick, .tau, .tau, .tau, .write 113 none, .tau, .tau, .tau,
   .send demoMsg, .tick, .tau, .tau, .tau, .write 0 (some (.other 0)), .tau, .tau,
   .tick, .tau, .connect none, .tau, .tau, .write 153 none, .tau, .tau, .tau]

example : ∃ s, History .rfc5425 demoBetween s ∧ CutsBetween (frames .rfc5425 demoBetween) s.conns ∧ s.conns.length = 2 ∧
    (frames .rfc5425 demoBetween).flatten <+: wire s := by
  refine ⟨⟨[], [⟨[demoFrame.take 40, demoFrame.drop 40, []], false⟩, ⟨[demoFrame], false⟩], true, false, [.write 0], false, false, false, false, .select⟩,
    by decide +kernel, ?_, rfl, by decide +kernel⟩
  intro pre c post e
  match pre, e with
  | [], _ => exact ⟨0, rfl⟩
  | [a], e =>
    simp only [List.cons_append, List.nil_append, List.cons.injEq] at e
    rw [← e.1]
    exact ⟨1, by decide +kernel⟩
  | [a, b], e => simp at e
  | a :: b :: c :: r, e => simp at e

/-- The second. -/
def demoCut : List Sender.Event :=
  [.send demoMsg, .send demoMsg, .tick, .tau, .connect none, .tau, .tau, .write 20 (some (.other 0)), .tau, .tau,
   .tick, .tau, .connect none, .tau, .tau, .write 133 none, .write 153 none, .tau, .tau, .tau]

/-- Its receiver. -/
def demoCutReceived : List Recv.Event :=
  [.tau, .acceptOk, .tau, .acceptOk, .read 0 { data := demoFrame.take 20 }, .read 1 { data := demoFrame.drop 20 },
   .read 1 { data := demoFrame }]

example : ∃ s c0 c1 x, History .rfc5425 demoCut s ∧ s.conns = [c0, c1] ∧
    (frames .rfc5425 demoCut)[0]? = some (demoFrame.take 20 ++ b!"1T22:14:15.003-07:00" ++ b!" " ++ x) ∧
    bytesOn [c0] = ((frames .rfc5425 demoCut).take 0).flatten ++ demoFrame.take 20 ∧
    arrived (readsOf 1 demoCutReceived) = c1.writes.flatten ∧ (frames .rfc5425 demoCut).flatten <+: wire s := by
  refine ⟨⟨[], [⟨[demoFrame.take 20], false⟩, ⟨[demoFrame.drop 20, demoFrame], false⟩], true, false, [.write 0], false, false, false, false, .select⟩,
    _, _, demoFrame.drop 41, by decide +kernel, rfl, ?_, ?_, ?_, ?_⟩ <;> decide +kernel
example : ¬ ∃ l, ReadsInt b!"1T22:14:15.003-07:00" l := by
  rintro ⟨l, sign, ds, e, _, h, hs⟩
  have hT : (84 : UInt8) ∈ sign ++ ds := by rw [← e]; decide
  rcases List.mem_append.mp hT with hT | hT
  · rcases hs with ⟨rfl | rfl, _⟩ | ⟨rfl, _⟩ <;> revert hT <;> decide
  · exact absurd (h _ hT) (by decide)
example : (match Recv.run .rfc5425 0 Recv.init demoCutReceived with
      | some q => !q.crashed && decide (q.conns.length = 2) && q.got.isEmpty && q.pipeline.isEmpty
      | none => false) = true := by decide +kernel

end Syslog5424
