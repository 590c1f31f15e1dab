import Verif.Props.Cuts
import Verif.Props.Lines
/-! # C72: a reconnection inside a frame with the LF and NUL transports -/
namespace Syslog5424
open Spec

/-- What the reference decoder takes first is what the bytes begin with. -/
theorem decodesReads_first {c : UInt8} {kept rest : Bytes} {datas : List Bytes} {ps : List (Bytes × Bytes)}
    (h : DecodesReads c kept datas ps rest) : ∀ p r, ps = p :: r → p.1 <+: kept ++ datas.flatten := by
  induction h with
  | nil => intro p r e; cases e
  | empty _ ih => intro p r e; simpa using ih p r e
  | @read kept data kept1 kept' datas ps qs _ _ h2 _ ih =>
    intro p r e
    cases h2 with
    | stop _ => simpa using ih p r e
    | take h =>
      obtain ⟨_, _, _, _, _, hb⟩ := h
      simp only [List.cons_append, List.cons.injEq] at e
      rw [← e.1, List.flatten_cons, ← List.append_assoc, hb]
      simp only [List.append_assoc]
      exact List.prefix_append _ _

/-- Every message begins with `<`. -/
theorem marshal_begins {m : Message} {b : Bytes} (h : m.marshal = .ret (.ok b)) : ∃ r, b = 60 :: r := by
  have hp : ∃ r, m.prio.marshal = 60 :: r := by
    unfold Priority.marshal
    dsimp only
    split
    · exact ⟨_, rfl⟩
    · split <;> exact ⟨_, rfl⟩
  obtain ⟨r, hp⟩ := hp
  unfold Message.marshal at h
  rw [hp] at h
  cases hs : sdListMarshal m.sd with
  | panic => rw [hs] at h; cases h
  | hang => rw [hs] at h; cases h
  | ret x =>
    rw [hs] at h
    cases x with
    | error e => cases h
    | ok sd =>
      simp only [Res.bind] at h
      split at h
      · simp only [Out.ret.injEq, Except.ok.injEq] at h
        exact ⟨_, by rw [← h]; rfl⟩
      · simp only [Out.ret.injEq, Except.ok.injEq] at h
        exact ⟨_, by rw [← h]; rfl⟩

/-- C72 is violated by a reconnection inside a frame, whatever is sent: if a write was cut (after `part`) and what is left of the
frame begins with another byte than `<`, then the first that is received from the next connection (if anything is) is a piece
of a message that looks like a message: `Receive` returns it without error, it begins in the middle of the frame that
was cut, and it is none of the messages that were sent. -/
theorem C72_cut_violated (t : Transport) (z : UInt8) (ht : t = .lfEnded ∧ z = 10 ∨ t = .zeroEnded ∧ z = 0)
    (es : List Sender.Event) (s : Sender.State) (hs : History t es s)
    (pre post : List Sender.Conn) (c : Sender.Conn) (hc : s.conns = pre ++ c :: post)
    (n : Nat) (part rest : Bytes) (y : UInt8) (hy : y ≠ 60) (hfr : (frames t es)[n]? = some (part ++ y :: rest))
    (hcut : bytesOn pre = ((frames t es).take n).flatten ++ part)
    (lenQueue : Nat) (er : List Recv.Event) (q : Recv.State) (hq : Recv.run t lenQueue Recv.init er = some q) (hcr : q.crashed = false)
    (i : Nat) (k : Recv.Conn) (hi : q.conns[i]? = some k) (hwire : arrived (readsOf i er) <+: c.writes.flatten)
    (d : Tok.Delivered) (r : List Tok.Delivered) (hd : ofConn i q.got = d :: r) :
    d.err = none ∧ (∃ x, d.msg.string = y :: x) ∧ d.msg.string <+: (y :: rest) ++ ((frames t es).drop (n + 1)).flatten ∧
    ∀ (m : Message) (b : Bytes), m.marshal = .ret (.ok b) → d.msg.string ≠ b := by
  have hz : terminator t = some z := by rcases ht with ⟨rfl, rfl⟩ | ⟨rfl, rfl⟩ <;> rfl
  have hw := C37_goes_on t es s hs pre post c hc
  obtain ⟨hlt, hfr⟩ := List.getElem?_eq_some_iff.mp hfr
  have hf : (frames t es).flatten = ((frames t es).take n).flatten ++ ((frames t es).drop n).flatten := by
    rw [← List.flatten_append, List.take_append_drop]
  have e : (frames t es).flatten.drop (bytesOn pre).length = (y :: rest) ++ ((frames t es).drop (n + 1)).flatten := by
    rw [hf, List.drop_eq_getElem_cons hlt, hfr, hcut, List.flatten_cons]
    have : ∀ a : Bytes, a ++ (part ++ y :: rest ++ ((frames t es).drop (n + 1)).flatten) =
      (a ++ part) ++ ((y :: rest) ++ ((frames t es).drop (n + 1)).flatten) := by intro a; simp
    rw [this, List.drop_left]
  rw [e] at hw
  obtain ⟨ps, kept, h1, h2⟩ := C89_receive t z hz lenQueue er q hq hcr i k hi
  rw [hd] at h2
  cases ps with
  | nil => simp only [List.take_nil] at h2; cases h2
  | cons p ps =>
    simp only [List.length_cons, List.take_succ_cons] at h2
    cases h2 with
    | cons h _ =>
      obtain ⟨pri, ts, host, app, pid, mid, sd, y', hraw, hp, herr, hstr, _⟩ := h
      have hpre := decodesReads_first h1 p ps rfl
      rw [List.nil_append, flatten_data] at hpre
      have hpre := hpre.trans (hwire.trans hw)
      obtain ⟨x, hx⟩ : ∃ x, d.msg.string = y :: x := by
        rw [hstr]
        cases hp' : p.1 with
        | nil =>
          rw [hp'] at hp
          have := (congrArg List.length hp)
          simp at this
        | cons a x =>
          rw [hp'] at hpre
          obtain ⟨u, hu⟩ := hpre
          simp only [List.cons_append, List.cons.injEq] at hu
          exact ⟨x, by rw [hu.1]⟩
      refine ⟨herr, ⟨x, hx⟩, by rw [hstr]; exact hpre, ?_⟩
      intro m b hb he
      obtain ⟨r', rfl⟩ := marshal_begins hb
      rw [hx] at he
      exact hy (List.cons.inj he).1

/-- In particular it is none of the messages that were sent. -/
theorem C72_cut_not_sent_violated (t : Transport) (z : UInt8) (ht : t = .lfEnded ∧ z = 10 ∨ t = .zeroEnded ∧ z = 0)
    (es : List Sender.Event) (s : Sender.State) (hs : History t es s)
    (pre post : List Sender.Conn) (c : Sender.Conn) (hc : s.conns = pre ++ c :: post)
    (n : Nat) (part rest : Bytes) (y : UInt8) (hy : y ≠ 60) (hfr : (frames t es)[n]? = some (part ++ y :: rest))
    (hcut : bytesOn pre = ((frames t es).take n).flatten ++ part)
    (lenQueue : Nat) (er : List Recv.Event) (q : Recv.State) (hq : Recv.run t lenQueue Recv.init er = some q) (hcr : q.crashed = false)
    (i : Nat) (k : Recv.Conn) (hi : q.conns[i]? = some k) (hwire : arrived (readsOf i er) <+: c.writes.flatten)
    (d : Tok.Delivered) (r : List Tok.Delivered) (hd : ofConn i q.got = d :: r) : ∀ m, ¬ IsReceived m d := by
  intro m h
  exact (C72_cut_violated t z ht es s hs pre post c hc n part rest y hy hfr hcut lenQueue er q hq hcr i k hi hwire d r hd).2.2.2 m _
    h.bytes rfl

/-! Its hypotheses are met by a sender whose connection fails inside a message: its receiver returns the rest of that message
as a message. -/

/-- The sender. -/
def demoCutLine : List Sender.Event :=
  [.send demoLine, .tick, .tau, .connect none, .tau, .tau, .write 20 (some (.other 0)), .tau, .tau,
   .tick, .tau, .connect none, .tau, .tau, .write 57 none, .tau, .tau, .tau]

/-- Its receiver. -/
def demoCutLineReceived : List Recv.Event :=
  [.tau, .acceptOk, .tau, .acceptOk, .read 0 { data := demoLineFrame.take 20 }, .read 1 { data := demoLineFrame.drop 20 }, .handoff 1]

example : ∃ s c0 c1 rest, History .lfEnded demoCutLine s ∧ s.conns = [c0, c1] ∧
    (frames .lfEnded demoCutLine)[0]? = some (demoLineFrame.take 20 ++ 58 :: rest) ∧
    bytesOn [c0] = ((frames .lfEnded demoCutLine).take 0).flatten ++ demoLineFrame.take 20 ∧
    arrived (readsOf 1 demoCutLineReceived) = c1.writes.flatten := by
  refine ⟨⟨[], [⟨[demoLineFrame.take 20], false⟩, ⟨[demoLineFrame.drop 20], false⟩], true, false, [.write 0], false, false, false, false, .select⟩,
    _, _, demoLineFrame.drop 21, by decide +kernel, rfl, ?_, ?_, ?_⟩ <;> decide +kernel
example : (match Recv.run .lfEnded 0 Recv.init demoCutLineReceived with
      | some q => !q.crashed && decide (q.conns.length = 2) && decide ((ofConn 1 q.got).map (fun d => d.msg.string) =
          [(demoLineFrame.drop 20).dropLast])
      | none => false) = true := by decide +kernel

end Syslog5424
