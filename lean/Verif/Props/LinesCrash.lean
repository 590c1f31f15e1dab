import Verif.Props.LoggingMany
/-! # C72, C73: what the segmentation can do to a receiver with the LF and NUL transports -/
namespace Syslog5424
open Spec Tok

theorem frames_first (t : Transport) {m : Message} {p : Bytes} (hp : m.marshal = .ret (.ok p)) (rest : List Message) :
    ∀ es : List Sender.Event, sent es = m :: rest → ∃ fs, frames t es = t.encode p :: fs := by
  intro es
  induction es with
  | nil => intro h; cases h
  | cons e es ih =>
    cases e with
    | send m' =>
      intro h
      simp only [sent, List.cons.injEq] at h
      obtain ⟨rfl, _⟩ := h
      exact ⟨frames t es, by simp only [frames, hp]⟩
    | _ => intro h; exact ih h

/-- C72 is violated: whatever messages are sent with the LF or the NUL transport, as soon as the first of them (at most 64 KiB,
with a text) is written, there is a way for these bytes to arrive that crashes the program of the receiver: when the first read
ends right behind the `-` of the structured data. -/
theorem C72_crash_violated (t : Transport) (z : UInt8) (ht : t = .lfEnded ∧ z = 10 ∨ t = .zeroEnded ∧ z = 0)
    (es : List Sender.Event) (s : Sender.State) (hs : History t es s) (m : Message) (rest : List Message) (hsent : sent es = m :: rest)
    (hm : TransmissibleLine z m) (p : Bytes) (hp : m.marshal = .ret (.ok p)) (hsize : p.length ≤ 65536)
    (c : Sender.Conn) (r : List Sender.Conn) (hc : s.conns = c :: r) (hw : p.length ≤ c.writes.flatten.length) (lenQueue : Nat) :
    ∃ er q, Recv.run t lenQueue Recv.init er = some q ∧ arrived (readsOf 0 er) <+: c.writes.flatten ∧ q.crashed = true := by
  have hz : z = 10 ∨ z = 0 := by rcases ht with ⟨_, h⟩ | ⟨_, h⟩ <;> simp [h]
  have ht' : t = .lfEnded ∨ t = .zeroEnded := by rcases ht with ⟨h, _⟩ | ⟨h, _⟩ <;> simp [h]
  obtain ⟨hl, hm', _⟩ := line_of_message hz hm
  rw [hp] at hm'
  simp only [Out.ret.injEq, Except.ok.injEq] at hm'
  have hpe : p = headerText (wireFields m) ++ b!"-" ++ (b!" " ++ m.message) := by rw [hm']; simp [lineText]
  have hlen : (headerText (wireFields m) ++ b!"-").length ≤ p.length := by rw [hpe]; simp only [List.length_append]; omega
  have hpan := C41_cut_after_dash_violated t ht' (wireFields m) hl.six (fun f hf => (hl.raw f hf).1) (by omega)
  have hstep : Tok.step t Tok.init { data := headerText (wireFields m) ++ b!"-" } = .panic := by
    cases hpan with
    | cons _ _ h2 => cases h2
    | last _ h1 _ => exact h1
  have hfit : Read.Fits { data := headerText (wireFields m) ++ b!"-" } Tok.init := fits_init (by simp only [List.length_nil]; omega)
  let q1 : Recv.State := { Recv.init with conns := [Recv.Conn.new] }
  have hread : Recv.step t lenQueue q1 (.read 0 { data := headerText (wireFields m) ++ b!"-" }) = some { q1 with crashed := true } := by
    have hcond : (Recv.Conn.new.running : Prop) ∧ Recv.Conn.new.pending.length = 0 ∧ ¬ Recv.Conn.new.errPending ∧
        Read.Fits { data := headerText (wireFields m) ++ b!"-" } Recv.Conn.new.tok := ⟨rfl, rfl, by decide, hfit⟩
    show (if Recv.Conn.new.running ∧ Recv.Conn.new.pending.length = 0 ∧ ¬ Recv.Conn.new.errPending ∧
        Read.Fits { data := headerText (wireFields m) ++ b!"-" } Recv.Conn.new.tok then
        match Tok.step t Tok.init { data := headerText (wireFields m) ++ b!"-" } with
        | .ret (goOn, tok) => _
        | .panic => some { q1 with crashed := true }
        | .hang => none
      else none) = _
    rw [if_pos hcond, hstep]
  refine ⟨[.tau, .acceptOk, .read 0 { data := headerText (wireFields m) ++ b!"-" }], { q1 with crashed := true }, ?_, ?_, rfl⟩
  · show (Recv.step t lenQueue q1 (.read 0 { data := headerText (wireFields m) ++ b!"-" })).bind (fun s => some s) = _
    rw [hread]; rfl
  · have e : arrived (readsOf 0 [.tau, .acceptOk, .read 0 { data := headerText (wireFields m) ++ b!"-" }]) = headerText (wireFields m) ++ b!"-" := by
      show (headerText (wireFields m) ++ b!"-") ++ [] = _
      rw [List.append_nil]
    rw [e]
    obtain ⟨fs, hfs⟩ := frames_first t hp rest es hsent
    have h1 : c.writes.flatten <+: (frames t es).flatten := by
      refine List.IsPrefix.trans ?_ (C34_prefix t es s hs)
      unfold wire
      rw [hc, List.map_cons, List.flatten_cons]
      exact List.prefix_append _ _
    have h2 : headerText (wireFields m) ++ b!"-" <+: (frames t es).flatten := by
      have : p <+: t.encode p := by rcases ht' with rfl | rfl <;> exact List.prefix_append _ _
      rw [hfs, List.flatten_cons]
      refine List.IsPrefix.trans ?_ (List.prefix_append _ _)
      refine List.IsPrefix.trans ?_ this
      rw [hpe]
      exact List.prefix_append _ _
    exact List.prefix_of_prefix_length_le h2 h1 (by omega)

/-- C73 is violated with the LF and NUL transports: whatever lines are logged, as soon as the first that passes is written there
is a way for these bytes to arrive that crashes the program of the receiver. -/
theorem C73_crash_violated (t : Transport) (z : UInt8) (ht : t = .lfEnded ∧ z = 10 ∨ t = .zeroEnded ∧ z = 0)
    (host : Option Bytes) (pid out : Nat) (p : Int) (app : Bytes) (hpid : pid < 2 ^ 63) (s0 s1 : Syslog)
    (h0 : Syslog.new host pid out p app = some s0) (cs : List LogCall) (hcs : ∀ c ∈ cs, LoggableLine z c) (hpass : passing p cs ≠ [])
    (es : List Sender.Event) (hlog : logAll s0 cs = .ret (s1, (sent es).map fun m => (out, m)))
    (hsize : ∀ m ∈ sent es, ∀ b, m.marshal = .ret (.ok b) → b.length ≤ 65536)
    (s : Sender.State) (hs : History t es s) (c : Sender.Conn) (r : List Sender.Conn) (hc : s.conns = c :: r)
    (hw : ∀ m b, (sent es).head? = some m → m.marshal = .ret (.ok b) → b.length ≤ c.writes.flatten.length) (lenQueue : Nat) :
    ∃ er q, Recv.run t lenQueue Recv.init er = some q ∧ arrived (readsOf 0 er) <+: c.writes.flatten ∧ q.crashed = true := by
  have g := logged_says h0 hlog
  cases hse : sent es with
  | nil =>
    rw [hse] at g
    exact absurd (List.length_eq_zero_iff.mp (by have := each_length g; simpa using this.symm)) hpass
  | cons m rest =>
    obtain ⟨cl, h1, h2⟩ := each_mem g m (by rw [hse]; simp)
    have hm := says_line hpid h2 (hcs cl (List.mem_filter.mp h1).1)
    have hz : z = 10 ∨ z = 0 := by rcases ht with ⟨_, h⟩ | ⟨_, h⟩ <;> simp [h]
    obtain ⟨_, hmar, _⟩ := line_of_message hz hm
    have hsz := hsize m (by rw [hse]; simp) _ hmar
    exact C72_crash_violated t z ht es s hs m rest hse hm _ hmar hsz c r hc (hw m _ (by rw [hse]; rfl) hmar) lenQueue

/-- The hypotheses of `C72_crash_violated` are met. -/
example : ∃ s c p, History .lfEnded demoLineSent s ∧ sent demoLineSent = demoLine :: [] ∧ demoLine.marshal = .ret (.ok p) ∧
    p.length ≤ 65536 ∧ s.conns = c :: [] ∧ p.length ≤ c.writes.flatten.length :=
  ⟨⟨[], [⟨[demoLineFrame], true⟩], true, false, [], true, true, false, false, .closeErr⟩, ⟨[demoLineFrame], true⟩,
    demoLineFrame.dropLast, by decide +kernel, rfl, by decide +kernel,
    by decide +kernel, rfl, by decide +kernel⟩

end Syslog5424
