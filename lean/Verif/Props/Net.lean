import Verif.Spec.Net
import Verif.Props.TimeQuality
/-! # Properties C47-C51, C55: connectors, dialer, listeners -/
namespace Syslog5424
open Spec Net

/-! ## C47 -/

theorem fakeRead_bytes (buff : Bytes) (n : Nat) (recv : Recv) :
    (buff = [] → ∀ d, recv = .datagram d → d.length ≤ 65536 → (fakeRead buff n recv).1 ++ (fakeRead buff n recv).2.2 = d ∧ (fakeRead buff n recv).2.1 = false) ∧
    (buff = [] → recv = .error → fakeRead buff n recv = ([], true, [])) ∧
    (buff ≠ [] → (fakeRead buff n recv).1 ++ (fakeRead buff n recv).2.2 = buff ∧ (fakeRead buff n recv).2.1 = false) := by
  refine ⟨?_, ?_, ?_⟩
  · intro h d hd hl
    subst h; subst hd
    simp only [fakeRead, List.length_nil, if_true, List.take_of_length_le hl]
    split <;> simp
  · intro h hd; subst h; subst hd; rfl
  · intro h
    have : buff.length ≠ 0 := fun h0 => h (List.length_eq_zero_iff.mp h0)
    simp only [fakeRead, this, if_false]
    split <;> simp

/-- C47: whatever the sizes of the slices given to `Read`, the bytes returned, those kept in the buffer and those of the
datagrams that were not taken yet are the bytes of the datagrams: nothing is lost, duplicated or reordered. For
datagrams of at most 65536 bytes. Every error of the system is reported once, without bytes. -/
theorem C47_in_order_partial (buff : Bytes) (q : List Recv) (ns : List Nat) (hq : ∀ d, Recv.datagram d ∈ q → d.length ≤ 65536) :
    readBytes (fakeReads buff q ns).1 ++ (fakeReads buff q ns).2.1 ++ payload (fakeReads buff q ns).2.2 = buff ++ payload q ∧
    errorsOut (fakeReads buff q ns).1 + errorsIn (fakeReads buff q ns).2.2 = errorsIn q ∧
    (fakeReads buff q ns).2.2 <:+ q := by
  induction ns generalizing buff q with
  | nil => simp [fakeReads, readBytes, errorsOut]
  | cons n ns ih =>
    simp only [fakeReads]
    by_cases hb : buff = []
    · subst hb
      simp only [List.length_nil, if_true]
      cases q with
      | nil => simp [readBytes, payload, errorsOut, errorsIn]
      | cons r q =>
        simp only
        have hq' : ∀ d, Recv.datagram d ∈ q → d.length ≤ 65536 := fun d hd => hq d (by simp [hd])
        obtain ⟨i1, i2, i3⟩ := ih (fakeRead [] n r).2.2 q hq'
        cases r with
        | datagram d =>
          obtain ⟨e1, e2⟩ := (fakeRead_bytes [] n (.datagram d)).1 rfl d rfl (hq d (by simp))
          refine ⟨?_, ?_, ?_⟩
          · simp only [readBytes, List.flatMap_cons] at i1 ⊢
            rw [List.append_assoc, List.append_assoc, ← List.append_assoc _ _ (payload _), i1, ← List.append_assoc, e1]
            simp [payload]
          · simp only [errorsOut, errorsIn, List.filter_cons, e2] at i2 ⊢
            simpa using i2
          · exact i3.trans (List.suffix_cons _ _)
        | error =>
          have e1 := (fakeRead_bytes [] n .error).2.1 rfl rfl
          rw [e1] at i1 i2 i3 ⊢
          refine ⟨?_, ?_, ?_⟩
          · simpa [readBytes, payload] using i1
          · simp only [errorsOut, errorsIn, List.filter_cons] at i2 ⊢
            simp; omega
          · exact i3.trans (List.suffix_cons _ _)
    · have hb0 : buff.length ≠ 0 := fun h0 => hb (List.length_eq_zero_iff.mp h0)
      simp only [hb0, if_false]
      obtain ⟨e1, e2⟩ := (fakeRead_bytes buff n .error).2.2 hb
      obtain ⟨i1, i2, i3⟩ := ih (fakeRead buff n .error).2.2 q hq
      refine ⟨?_, ?_, i3⟩
      · simp only [readBytes, List.flatMap_cons] at i1 ⊢
        rw [List.append_assoc, List.append_assoc, ← List.append_assoc _ _ (payload _), i1, ← List.append_assoc, e1]
      · simp only [errorsOut, List.filter_cons, e2] at i2 ⊢
        simpa using i2

/-- C47: no call asks for bytes in vain: with a slice that is not empty, a call returns at least one byte of a
datagram that is not empty, and never more than the slice holds. -/
theorem C47_progress (buff : Bytes) (n : Nat) (recv : Recv) (hn : 0 < n) :
    (fakeRead buff n recv).1.length ≤ n ∧
    ((buff ≠ [] ∨ ∃ d, recv = .datagram d ∧ d ≠ []) → 0 < (fakeRead buff n recv).1.length) := by
  have key : ∀ b : Bytes, (if n ≤ b.length then (b.take n, false, b.drop n) else (b, false, ([] : Bytes))).1.length = min n b.length := by
    intro b; split
    · simp
    · simp only; omega
  unfold fakeRead
  simp only
  split
  · rename_i hb
    have hb' : buff = [] := List.length_eq_zero_iff.mp hb
    cases recv with
    | error => simp [hb']
    | datagram d =>
      simp only [key]
      refine ⟨by omega, fun h => ?_⟩
      rcases h with h | ⟨d', h, h2⟩
      · exact absurd hb' h
      · simp only [Recv.datagram.injEq] at h; subst h
        have : 0 < d.length := List.length_pos_iff.mpr h2
        simp only [List.length_take]; omega
  · rename_i hb
    simp only [key]
    exact ⟨by omega, fun _ => by omega⟩

/-- C47 is violated for larger datagrams: only the first 65536 bytes are delivered (Unix sockets carry more). -/
theorem C47_truncated_violated (d : Bytes) (ns : List Nat) :
    readBytes (fakeReads [] [.datagram d] ns).1 ++ (fakeReads [] [.datagram d] ns).2.1 = if ns = [] then [] else d.take 65536 := by
  cases ns with
  | nil => rfl
  | cons n ns =>
    have h1 := (C47_in_order_partial [] [.datagram (d.take 65536)] (n :: ns) (by
      intro d' hd; simp only [List.mem_singleton, Recv.datagram.injEq] at hd; subst hd; simp only [List.length_take]; omega)).1
    have e : fakeReads [] [.datagram d] (n :: ns) = fakeReads [] [.datagram (d.take 65536)] (n :: ns) := by
      simp only [fakeReads, fakeRead, List.take_take, Nat.min_self, List.length_nil, if_true]
    rw [e]
    have hrest : payload (fakeReads [] [.datagram (d.take 65536)] (n :: ns)).2.2 = [] := by
      have gen : ∀ (ns : List Nat) (b : Bytes), (fakeReads b [] ns).2.2 = [] := by
        intro ns; induction ns with
        | nil => intro b; rfl
        | cons n ns ih => intro b; simp only [fakeReads]; split <;> simp [ih]
      simp only [fakeReads, List.length_nil, if_true]
      rw [gen]; rfl
    rw [hrest] at h1
    simpa [payload] using h1

/-- Three datagrams and an error, read with slices of 3 bytes. -/
example : fakeReads [] [.datagram b!"hello", .error, .datagram [], .datagram b!"you"] [3, 3, 3, 3, 3, 3] =
    ([(b!"hel", false), (b!"lo", false), ([], true), ([], false), (b!"you", false)], [], []) := by decide

/-! ## C48 -/

/-- C48: `Dial` accepts exactly the documented networks. -/
theorem C48_networks (flushDelay : Int) (network address : Bytes) (t : Option Transport) :
    (∃ d, dial flushDelay network address t = .ok d) ↔ network ∈ networks := by
  unfold dial
  simp only [networks, List.mem_cons, List.not_mem_nil, or_false]
  by_cases h1 : network = b!"stdio" <;> by_cases h2 : network = b!"local" <;> by_cases h3 : network = b!"unix" <;>
    by_cases h4 : network = b!"unixgram" <;> by_cases h5 : network = b!"tcp" <;> by_cases h6 : network = b!"tcp4" <;>
    by_cases h7 : network = b!"tcp6" <;> simp_all

/-- C48: any other network is an error, without a connection attempt. -/
theorem C48_unknown (flushDelay : Int) (network address : Bytes) (t : Option Transport) (h : network ∉ networks) :
    dial flushDelay network address t = .error .unknownNetwork := by
  simp only [networks, List.mem_cons, List.not_mem_nil, or_false, not_or] at h
  unfold dial
  simp [h]

/-- C48: the transport is the given one, or the common one of the network; the automatic flush has the given period, and is
disabled up to 1 ms. -/
theorem C48_options (flushDelay : Int) (network address : Bytes) (t : Option Transport) (d : Dialed)
    (h : dial flushDelay network address t = .ok d) :
    d.transport = t.getD (commonTransport network) ∧ (∀ x, t = some x → d.transport = x) ∧
    (d.period = none ↔ flushDelay ≤ 1000000) ∧ (∀ p, d.period = some p → p = flushDelay) := by
  have key : d.transport = t.getD (commonTransport network) ∧ d.period = if flushDelay ≤ 1000000 then none else some flushDelay := by
    unfold dial at h
    simp only at h
    split at h
    · rename_i hn; simp only [Except.ok.injEq] at h; subst h; subst hn; exact ⟨rfl, rfl⟩
    split at h
    · rename_i hn; simp only [Except.ok.injEq] at h; subst h; subst hn; exact ⟨rfl, rfl⟩
    split at h
    · rename_i hn; simp only [Except.ok.injEq] at h; subst h
      rcases hn with rfl | rfl <;> exact ⟨rfl, rfl⟩
    split at h
    · rename_i hn; simp only [Except.ok.injEq] at h; subst h
      rcases hn with rfl | rfl | rfl <;> exact ⟨rfl, rfl⟩
    · simp at h
  refine ⟨key.1, fun x hx => by rw [key.1, hx]; rfl, ?_, ?_⟩
  · rw [key.2]; split <;> simp [*]
  · rw [key.2]; intro p hp; split at hp <;> simp at hp; exact hp.symm

/-- C48: where the messages go. -/
theorem C48_destination (flushDelay : Int) (network address : Bytes) (t : Option Transport) (d : Dialed)
    (h : dial flushDelay network address t = .ok d) :
    (network = b!"stdio" → (d.connector = .stderr ↔ address = b!"stderr:") ∧ (d.connector = .stdout ↔ address = b!"stdout:") ∧
      (address ≠ b!"stderr:" → address ≠ b!"stdout:" → ∃ e, d.connector = .invalid e)) ∧
    (network = b!"local" → d.connector = .loc [] address) ∧
    (network = b!"unix" ∨ network = b!"unixgram" → d.connector = .loc network address) ∧
    (network = b!"tcp" ∨ network = b!"tcp4" ∨ network = b!"tcp6" →
      (address ≠ [] → d.connector = .tcp network address) ∧ (address = [] → d.connector = .invalid .emptyNetworkAddress)) := by
  refine ⟨?_, ?_, ?_, ?_⟩
  · rintro rfl
    simp only [dial, if_true, Except.ok.injEq] at h
    subst h
    simp only [stdioConnector]
    by_cases h1 : address = b!"stderr:" <;> by_cases h2 : address = b!"stdout:" <;> by_cases h3 : address = [] <;> simp_all
  · rintro rfl
    simp only [dial] at h
    rw [if_neg (by decide), if_pos (by decide)] at h
    simp only [Except.ok.injEq] at h; subst h; rfl
  · rintro (rfl | rfl) <;> simp only [dial] at h
    · rw [if_neg (by decide), if_neg (by decide), if_pos (by decide)] at h
      simp only [Except.ok.injEq] at h; subst h; rfl
    · rw [if_neg (by decide), if_neg (by decide), if_pos (by decide)] at h
      simp only [Except.ok.injEq] at h; subst h; rfl
  · rintro (rfl | rfl | rfl) <;> simp only [dial] at h <;>
      (rw [if_neg (by decide), if_neg (by decide), if_neg (by decide), if_pos (by decide)] at h
       simp only [Except.ok.injEq] at h; subst h
       simp only [tcpConnector]
       constructor
       · intro ha; rw [if_neg (by simp [ha]), if_neg (by simp)]
       · intro ha; rw [if_pos (by simp [ha])])

/-- C48: the function `Dial` flushes every 500 ms, with the common transport. -/
theorem C48_default (network address : Bytes) (h : network ∈ networks) :
    ∃ d, dialDefault network address = .ok d ∧ d.period = some 500000000 ∧ d.transport = commonTransport network := by
  obtain ⟨d, hd⟩ := (C48_networks 500000000 network address none).mpr h
  obtain ⟨h1, _, h3, h4⟩ := C48_options _ _ _ _ _ hd
  refine ⟨d, hd, ?_, h1⟩
  cases hp : d.period with
  | none => exact absurd (h3.mp hp) (by decide)
  | some p => rw [h4 p hp]

example : dialDefault b!"tcp" b!"localhost:514" = .ok ⟨.tcp b!"tcp" b!"localhost:514", .lfEnded, some 500000000⟩ := by decide
example : dial 1000 b!"local" [] (some .rfc5425) = .ok ⟨.loc [] [], .rfc5425, none⟩ := by decide
example : dial 0 b!"udp" b!"localhost:514" none = .error .unknownNetwork := by decide

/-! ## C49 -/

/-- C49: `GuessListener` accepts exactly the five networks, and passes a tcp network on unchanged. -/
theorem C49_guess (network : Bytes) :
    (∀ e, guessListener network = .error e ↔ e = .invalidNetwork ∧
      network ∉ [b!"tcp", b!"tcp4", b!"tcp6", b!"unix", b!"unixgram"]) ∧
    (∀ n, guessListener network = .ok (.tcp n) ↔ n = network ∧ network ∈ [b!"tcp", b!"tcp4", b!"tcp6"]) ∧
    (guessListener network = .ok .unix ↔ network = b!"unix") ∧
    (guessListener network = .ok .unixgram ↔ network = b!"unixgram") := by
  unfold guessListener
  simp only [List.mem_cons, List.not_mem_nil, or_false]
  by_cases h3 : network = b!"unix" <;>
    by_cases h4 : network = b!"unixgram" <;> by_cases h5 : network = b!"tcp" <;> by_cases h6 : network = b!"tcp4" <;>
    by_cases h7 : network = b!"tcp6" <;> simp_all <;> intros <;> constructor <;> intro h <;> first | exact h.symm | (simp_all)

/-- C49: `TCPListener` accepts exactly the three tcp networks, and reports every error of the system. -/
theorem C49_tcp (network : Bytes) (resolve listen : Option Err) :
    (tcpListener network resolve listen = .ok () ↔ network ∈ [b!"tcp", b!"tcp4", b!"tcp6"] ∧ resolve = none ∧ listen = none) ∧
    (network ∉ [b!"tcp", b!"tcp4", b!"tcp6"] → tcpListener network resolve listen = .error .invalidNetwork) ∧
    (network ∈ [b!"tcp", b!"tcp4", b!"tcp6"] → ∀ e, resolve = some e ∨ (resolve = none ∧ listen = some e) →
      tcpListener network resolve listen = .error e) := by
  unfold tcpListener
  simp only [List.mem_cons, List.not_mem_nil, or_false]
  by_cases h5 : network = b!"tcp" <;> by_cases h6 : network = b!"tcp4" <;> by_cases h7 : network = b!"tcp6" <;>
    cases resolve <;> cases listen <;> simp_all

example : guessListener b!"tcp4" = .ok (.tcp b!"tcp4") ∧ guessListener b!"udp" = .error .invalidNetwork := by decide

/-! ## C50 -/

theorem tryAll_spec (accepts : Bytes → Bytes → Bool) (l : List (Bytes × Bytes)) :
    (∀ p, (tryAll accepts l).1 = some p ↔ FirstThat (fun x => accepts x.1 x.2 = true) l p (tryAll accepts l).2) ∧
    ((tryAll accepts l).1 = none ↔ (∀ x ∈ l, accepts x.1 x.2 = false)) ∧
    ((tryAll accepts l).1 = none → (tryAll accepts l).2 = l) := by
  induction l with
  | nil =>
    refine ⟨fun p => ?_, by simp [tryAll], fun _ => rfl⟩
    simp [tryAll, FirstThat]
  | cons q l ih =>
    obtain ⟨i1, i2, i3⟩ := ih
    simp only [tryAll]
    by_cases hq : accepts q.1 q.2 = true
    · simp only [hq, if_true]
      refine ⟨fun p => ⟨fun h => ?_, ?_⟩, by simp [hq], by simp⟩
      · simp only [Option.some.injEq] at h; subst h
        exact ⟨[], l, rfl, rfl, hq, by simp⟩
      · rintro ⟨b, a, e1, e2, h1, h2⟩
        match b, e1, h2 with
        | [], e1, _ => simp only [List.nil_append, List.cons.injEq] at e1; rw [e1.1]
        | x :: b, e1, h2 =>
          simp only [List.cons_append, List.cons.injEq] at e1
          exact absurd (e1.1 ▸ hq) (h2 x (by simp))
    · simp only [hq, Bool.false_eq_true, if_false]
      refine ⟨fun p => ?_, by simp [i2, hq], fun h => by rw [i3 h]⟩
      rw [i1 p]
      constructor
      · rintro ⟨b, a, e1, e2, h1, h2⟩
        refine ⟨q :: b, a, by rw [e1]; rfl, by rw [e2]; rfl, h1, ?_⟩
        intro x hx
        rcases List.mem_cons.mp hx with rfl | hx
        · exact hq
        · exact h2 x hx
      · rintro ⟨b, a, e1, e2, h1, h2⟩
        match b, e1, e2, h2 with
        | [], e1, _, _ =>
          simp only [List.nil_append, List.cons.injEq] at e1
          rw [← e1.1] at h1; exact absurd h1 hq
        | x :: b, e1, e2, h2 =>
          simp only [List.cons_append, List.cons.injEq] at e1 e2
          exact ⟨b, a, e1.2, e2.2, h1, fun y hy => h2 y (by simp [hy])⟩

/-- C50: without an address, the local connector connects to the first of the six places that accepts, having tried only
the places before it, and remembers it. `network` may be anything. -/
theorem C50_search (accepts : Bytes → Bytes → Bool) (dialErr : Err) (network : Bytes) (p : Bytes × Bytes) :
    let r := Local.connect accepts dialErr ⟨network, []⟩
    (r.conn = .ok p ↔ FirstThat (fun x => accepts x.1 x.2 = true) places p r.dialed) ∧
    (r.conn = .ok p → r.state = ⟨p.1, p.2⟩) ∧
    ((∃ e, r.conn = .error e) ↔ ∀ x ∈ places, accepts x.1 x.2 = false) ∧
    (∀ e, r.conn = .error e → e = .noConnection ∧ r.state = ⟨network, []⟩ ∧ r.dialed = places) := by
  have hpl : (logTypes.flatMap fun t => logPaths.map fun a => (t, a)) = places := by decide
  obtain ⟨t1, t2, t3⟩ := tryAll_spec accepts places
  simp only [Local.connect, hpl, ne_eq, not_true_eq_false, false_and, if_false]
  cases hr : (tryAll accepts places).1 with
  | none =>
    simp only
    refine ⟨?_, by simp, ?_, ?_⟩
    · rw [← t1 p, hr]; simp
    · exact ⟨fun _ => t2.mp hr, fun _ => ⟨_, rfl⟩⟩
    · intro e he; simp only [Except.error.injEq] at he; exact ⟨he.symm, by simp, t3 hr⟩
  | some q =>
    simp only [Except.ok.injEq]
    refine ⟨?_, ?_, ?_, by simp⟩
    · rw [← t1 p, hr, Option.some.injEq]
    · rintro rfl; rfl
    · constructor
      · rintro ⟨e, he⟩; simp at he
      · intro h; rw [← t2, hr] at h; simp at h

/-- C50: with an address and no network, `unix` is tried before `unixgram`, and the one that accepted is remembered. -/
theorem C50_address (accepts : Bytes → Bytes → Bool) (dialErr : Err) (address : Bytes) (ha : address ≠ []) (p : Bytes × Bytes) :
    let r := Local.connect accepts dialErr ⟨[], address⟩
    (r.conn = .ok p ↔ FirstThat (fun x => accepts x.1 x.2 = true) [(b!"unix", address), (b!"unixgram", address)] p r.dialed) ∧
    (r.conn = .ok p → r.state = ⟨p.1, address⟩ ∧ p.2 = address) ∧
    (∀ e, r.conn = .error e ↔ e = .noConnection ∧ accepts b!"unix" address = false ∧ accepts b!"unixgram" address = false) ∧
    (∀ e, r.conn = .error e → r.state = ⟨[], address⟩) := by
  have hpl : (logTypes.map fun t => (t, address)) = [(b!"unix", address), (b!"unixgram", address)] := rfl
  obtain ⟨t1, t2, t3⟩ := tryAll_spec accepts [(b!"unix", address), (b!"unixgram", address)]
  simp only [Local.connect, hpl]
  rw [if_neg (by simp), if_pos (by simpa using ha)]
  cases hr : (tryAll accepts [(b!"unix", address), (b!"unixgram", address)]).1 with
  | none =>
    simp only
    have := t2.mp hr
    refine ⟨?_, by simp, ?_, by simp⟩
    · rw [← t1 p, hr]; simp
    · intro e
      simp only [Except.error.injEq]
      constructor
      · intro he; exact ⟨he.symm, this (b!"unix", address) (by simp), this (b!"unixgram", address) (by simp)⟩
      · intro he; exact he.1.symm
  | some q =>
    simp only [Except.ok.injEq]
    refine ⟨?_, ?_, ?_, by simp⟩
    · rw [← t1 p, hr, Option.some.injEq]
    · rintro rfl
      refine ⟨rfl, ?_⟩
      obtain ⟨b, a, e1, _⟩ := (t1 q).mp hr
      have hm : q ∈ [(b!"unix", address), (b!"unixgram", address)] := by rw [e1]; simp
      simp only [List.mem_cons, List.not_mem_nil, or_false] at hm
      rcases hm with rfl | rfl <;> rfl
    · intro e
      constructor
      · intro he; simp at he
      · rintro ⟨_, h1, h2⟩
        have : (tryAll accepts [(b!"unix", address), (b!"unixgram", address)]).1 = none := by
          rw [t2]; intro x hx
          simp only [List.mem_cons, List.not_mem_nil, or_false] at hx
          rcases hx with rfl | rfl
          · exact h1
          · exact h2
        rw [hr] at this; simp at this

/-- A sequence of calls of `Connect`, in any environments. -/
def Spec.connects : Local → List ((Bytes → Bytes → Bool) × Err) → List LocalResult
  | _, [] => []
  | c, env :: r => let x := Local.connect env.1 env.2 c; x :: connects x.state r

/-- C50: once a network and an address are given or found, every later `Connect` dials exactly this place, whatever the
environment has become; it connects to it, or reports the error of dialing it. -/
theorem C50_remembered (network address : Bytes) (hn : network ≠ []) (ha : address ≠ [])
    (envs : List ((Bytes → Bytes → Bool) × Err)) :
    ∀ i (h : i < (connects ⟨network, address⟩ envs).length), ∃ env, envs[i]? = some env ∧
      let r := (connects ⟨network, address⟩ envs)[i]
      r.dialed = [(network, address)] ∧
      r.conn = if env.1 network address = true then .ok (network, address) else .error env.2 := by
  induction envs with
  | nil => intro i h; simp [connects] at h
  | cons env envs ih =>
    have hst : (Local.connect env.1 env.2 ⟨network, address⟩).state = ⟨network, address⟩ := by
      simp [Local.connect, hn, ha]
    intro i h
    match i with
    | 0 =>
      refine ⟨env, rfl, ?_⟩
      simp only [connects, List.getElem_cons_zero]
      simp [Local.connect, hn, ha]
    | i + 1 =>
      simp only [connects, hst, List.length_cons] at h
      obtain ⟨e, h1, h2⟩ := ih i (by omega)
      refine ⟨e, by simpa using h1, ?_⟩
      simp only [connects, List.getElem_cons_succ, hst]
      exact h2

/-- Only `/dev/log` accepts, as a datagram socket: it is found last, and remembered. -/
example : Local.connect (fun n a => n == b!"unixgram" && a == b!"/dev/log") .posNotFound ⟨[], []⟩ =
    ⟨.ok (b!"unixgram", b!"/dev/log"), ⟨b!"unixgram", b!"/dev/log"⟩, places⟩ := by decide

/-! ## C51 -/

theorem selectIPs_spec (network : Bytes) (raw : List IP) : selectIPs network raw = raw.filter fun ip => decide (Family network ip) := by
  unfold selectIPs Family
  split
  · rename_i h; subst h
    apply List.filter_congr; intro x _; rcases x with ⟨v, a⟩; cases v <;> simp
  · split
    · rename_i h; subst h
      apply List.filter_congr; intro x _; rcases x with ⟨v, a⟩; cases v <;> simp
    · rename_i h1 h2
      rw [List.filter_eq_self.mpr]; intro x _; simp [h1, h2]

theorem dialLoop_spec (dialTCP : IP → Int → Option Err) (port : Int) (l : List IP) (c : Option IP) (e : Option Err) :
    (∀ ip, FirstThat (fun x => dialTCP x port = none) l ip (dialLoop dialTCP port l c e).2.2 →
      (dialLoop dialTCP port l c e).1 = some ip ∧ (dialLoop dialTCP port l c e).2.1 = none) ∧
    ((∀ x ∈ l, dialTCP x port ≠ none) → (dialLoop dialTCP port l c e).2.2 = l ∧
      (dialLoop dialTCP port l c e).2.1 = match l.getLast? with | none => e | some x => dialTCP x port) ∧
    ((∃ x ∈ l, dialTCP x port = none) → ∃ ip, FirstThat (fun x => dialTCP x port = none) l ip (dialLoop dialTCP port l c e).2.2) := by
  induction l generalizing c e with
  | nil =>
    refine ⟨?_, ?_, by simp⟩
    · rintro ip ⟨b, a, h, _⟩; simp at h
    · intro _; exact ⟨rfl, rfl⟩
  | cons q l ih =>
    simp only [dialLoop]
    cases hq : dialTCP q port with
    | none =>
      simp only
      refine ⟨?_, ?_, fun _ => ⟨q, [], l, rfl, rfl, hq, by simp⟩⟩
      · rintro ip ⟨b, a, e1, e2, h1, h2⟩
        match b, e1, h2 with
        | [], e1, _ => simp only [List.nil_append, List.cons.injEq] at e1; rw [e1.1]; exact ⟨by trivial, by trivial⟩
        | x :: b, e1, h2 =>
          simp only [List.cons_append, List.cons.injEq] at e1
          exact absurd (e1.1 ▸ hq) (h2 x (by simp))
      · intro h; exact absurd hq (h q (by simp))
    | some er =>
      simp only
      obtain ⟨i1, i2, i3⟩ := ih none (some er)
      refine ⟨?_, ?_, ?_⟩
      · rintro ip ⟨b, a, e1, e2, h1, h2⟩
        match b, e1, e2, h2 with
        | [], e1, _, _ =>
          simp only [List.nil_append, List.cons.injEq] at e1
          rw [← e1.1, hq] at h1; simp at h1
        | x :: b, e1, e2, h2 =>
          simp only [List.cons_append, List.cons.injEq] at e1 e2
          exact i1 ip ⟨b, a, e1.2, e2.2, h1, fun y hy => h2 y (by simp [hy])⟩
      · intro h
        obtain ⟨j1, j2⟩ := i2 fun x hx => h x (by simp [hx])
        refine ⟨by rw [j1], ?_⟩
        rw [j2]
        cases l with
        | nil => simp [hq]
        | cons y l =>
          obtain ⟨z, hz⟩ : ∃ z, (y :: l).getLast? = some z := ⟨_, List.getLast?_eq_some_getLast (by simp)⟩
          rw [List.getLast?_cons_cons, hz]
      · rintro ⟨x, hx, hx2⟩
        rcases List.mem_cons.mp hx with rfl | hx
        · rw [hq] at hx2; simp at hx2
        obtain ⟨ip, b, a, e1, e2, h1, h2⟩ := i3 ⟨x, hx, hx2⟩
        refine ⟨ip, q :: b, a, by rw [e1]; rfl, by rw [e2]; rfl, h1, ?_⟩
        intro y hy
        rcases List.mem_cons.mp hy with rfl | hy
        · simp [hq]
        · exact h2 y hy

/-- C51 (partial): when the address and the port are well formed and the resolver knows at least one address of the wanted
family, `Connect` dials only addresses of that family, in the order of the resolver, at that port (514 if none is given); it
returns the first one that accepts, without dialing the others, and if none accepts, the error of the last one. Missing: no
address of that family, see `C51_no_address_violated`. -/
theorem C51_connect_partial (network host portStr : Bytes) (port : Int) (hport : (portStr = [] ∧ port = 514) ∨ (portStr ≠ [] ∧ IntText portStr port))
    (resolve : Bytes → Except Err (List IP)) (raw : List IP) (hraw : resolve host = .ok raw)
    (hne : ∃ ip ∈ raw, Family network ip) (dialTCP : IP → Int → Option Err) :
    ∃ res dialed, tcpConnect network (.ok (host, portStr)) resolve dialTCP = .ret (res, dialed) ∧
      (∀ ip ∈ dialed, Family network ip) ∧
      (∀ ip, FirstThat (fun x => dialTCP x port = none) (raw.filter fun ip => decide (Family network ip)) ip dialed → res = .ok ip) ∧
      ((∃ ip ∈ raw, Family network ip ∧ dialTCP ip port = none) →
        ∃ ip, FirstThat (fun x => dialTCP x port = none) (raw.filter fun ip => decide (Family network ip)) ip dialed) ∧
      ((∀ ip ∈ raw, Family network ip → dialTCP ip port ≠ none) →
        dialed = raw.filter (fun ip => decide (Family network ip)) ∧
        ∃ e, res = .error e ∧ ∃ last, dialed.getLast? = some last ∧ dialTCP last port = some e) := by
  have hp : (if portStr = [] then some 514 else atoi portStr) = some port := by
    rcases hport with ⟨h1, h2⟩ | ⟨h1, h2⟩
    · rw [if_pos h1, h2]
    · rw [if_neg h1, (atoi_iff _ _).mpr h2]
  obtain ⟨s1, s2, s3⟩ := dialLoop_spec dialTCP port (raw.filter fun ip => decide (Family network ip)) none none
  have hmem : ∀ {ip}, ip ∈ (raw.filter fun ip => decide (Family network ip)) ↔ ip ∈ raw ∧ Family network ip := by
    intro ip; simp
  by_cases hok : ∃ ip ∈ raw, Family network ip ∧ dialTCP ip port = none
  · obtain ⟨ip0, m1, m2, m3⟩ := hok
    obtain ⟨ip, hf⟩ := s3 ⟨ip0, hmem.mpr ⟨m1, m2⟩, m3⟩
    obtain ⟨c1, c2⟩ := s1 ip hf
    refine ⟨.ok ip, _, ?_, ?_, ?_, fun _ => ⟨ip, hf⟩, ?_⟩
    · simp only [tcpConnect, hp, hraw, selectIPs_spec, c2, c1]
    · obtain ⟨b, a, e1, e2, _⟩ := hf
      intro x hx
      rw [e2] at hx
      exact (hmem.mp (by rw [e1]; simp only [List.mem_append, List.mem_cons, List.not_mem_nil, or_false] at hx ⊢; rcases hx with hx | hx <;> simp [hx])).2
    · intro ip' hf'
      have := (s1 ip' hf').1
      rw [c1] at this; simp only [Option.some.injEq] at this; rw [this]
    · intro h; exact absurd m3 (h ip0 m1 m2)
  · have hall : ∀ x ∈ (raw.filter fun ip => decide (Family network ip)), dialTCP x port ≠ none := by
      intro x hx h; exact hok ⟨x, (hmem.mp hx).1, (hmem.mp hx).2, h⟩
    obtain ⟨j1, j2⟩ := s2 hall
    obtain ⟨ip0, m1, m2⟩ := hne
    have hnn : (raw.filter fun ip => decide (Family network ip)) ≠ [] := by
      intro h; have : ip0 ∈ (raw.filter fun ip => decide (Family network ip)) := hmem.mpr ⟨m1, m2⟩
      rw [h] at this; simp at this
    obtain ⟨last, hlast⟩ : ∃ last, (raw.filter fun ip => decide (Family network ip)).getLast? = some last :=
      ⟨_, List.getLast?_eq_some_getLast hnn⟩
    have hlm : last ∈ (raw.filter fun ip => decide (Family network ip)) := List.mem_of_getLast? hlast
    obtain ⟨er, her⟩ : ∃ er, dialTCP last port = some er := by
      cases h : dialTCP last port with
      | none => exact absurd h (hall last hlm)
      | some er => exact ⟨er, rfl⟩
    rw [hlast] at j2
    simp only [her] at j2
    refine ⟨.error er, raw.filter (fun ip => decide (Family network ip)), ?_, ?_, ?_, ?_, ?_⟩
    · simp only [tcpConnect, hp, hraw, selectIPs_spec, j2, j1]
    · intro x hx; exact (hmem.mp hx).2
    · rintro ip ⟨b, a, e1, _, h1, _⟩
      exact absurd h1 (hall ip (by rw [e1]; simp))
    · intro h; exact absurd h hok
    · intro _; exact ⟨rfl, er, rfl, last, hlast, her⟩

/-- C51 is violated: when the resolver knows no address of the wanted family, `Connect` does not report an error: it
panics. -/
theorem C51_no_address_violated (network host : Bytes) (resolve : Bytes → Except Err (List IP)) (raw : List IP) (hraw : resolve host = .ok raw)
    (hno : ∀ ip ∈ raw, ¬ Family network ip) (dialTCP : IP → Int → Option Err) :
    tcpConnect network (.ok (host, [])) resolve dialTCP = .panic := by
  have : raw.filter (fun ip => decide (Family network ip)) = [] := by
    rw [List.filter_eq_nil_iff]; intro x hx; simpa using hno x hx
  simp [tcpConnect, hraw, selectIPs_spec, this, dialLoop]

/-- `tcp6` to a host that has only an IPv4 address; and three addresses of which the second of the family accepts. -/
example : ∀ ip ∈ [IP.mk true 1], ¬ Family b!"tcp6" ip := by decide
example : tcpConnect b!"tcp4" (.ok (b!"host", b!"6514")) (fun _ => .ok [⟨true, 1⟩, ⟨false, 2⟩, ⟨true, 3⟩])
    (fun ip port => if ip.addr = 3 ∧ port = 6514 then none else some .posNotFound) = .ret (.ok ⟨true, 3⟩, [⟨true, 1⟩, ⟨true, 3⟩]) := by decide

/-! ## C55 -/

/-- The file system, as the listeners see it: what is at the address, whether it may be removed. -/
inductive Spec.Entry where
  | free
  | staleSocket
  | liveSocket (server : Nat)
  | file
  | directory
deriving DecidableEq

/-- Listening fails while there is something at the address; otherwise it makes a socket there, of the server `me`. -/
def Spec.fsListen (me : Nat) : Entry → Bind × Entry
  | .free => (.ok, .liveSocket me)
  | e => (.inUse, e)
def Spec.fsStat (e : Entry) : Bool × Entry := (decide (e ≠ .free), e)
/-- Removing needs the permission. -/
def Spec.fsRemove (allowed : Bool) (e : Entry) : Entry := if allowed then .free else e

/-- C55 (partial): in any environment, the listener is made, or an error is reported, and it is what the last attempt to
listen gave; every attempt before it said that the address is in use. Missing: that there is a last attempt, see
`C55_endless_violated`. -/
theorem C55_result_partial {E : Type} (listen : E → Bind × E) (stat : E → Bool × E) (remove : E → E) (fuel : Nat) (env : E)
    (r : Except Err Unit) (env' : E) (h : listenLoop listen stat remove fuel env = .ret (r, env')) :
    ∃ last : E, (r = .ok () ∧ listen last = (.ok, env')) ∨ (∃ e, r = .error e ∧ listen last = (.error e, env')) ∨
      (r = .error errInUse ∧ (listen last).1 = .inUse ∧ stat (listen last).2 = (false, env')) := by
  induction fuel generalizing env with
  | zero => simp [listenLoop] at h
  | succ fuel ih =>
    simp only [listenLoop] at h
    split at h
    · rename_i env1 h1
      simp only [Out.ret.injEq, Prod.mk.injEq] at h; obtain ⟨rfl, rfl⟩ := h
      exact ⟨env, Or.inl ⟨rfl, h1⟩⟩
    · rename_i e env1 h1
      simp only [Out.ret.injEq, Prod.mk.injEq] at h; obtain ⟨rfl, rfl⟩ := h
      exact ⟨env, Or.inr (Or.inl ⟨e, rfl, h1⟩)⟩
    · rename_i env1 h1
      split at h
      · rename_i env2 h2
        simp only [Out.ret.injEq, Prod.mk.injEq] at h; obtain ⟨rfl, rfl⟩ := h
        exact ⟨env, Or.inr (Or.inr ⟨rfl, by rw [h1], by rw [h1]; exact h2⟩)⟩
      · exact ih _ h

/-- C55 (partial): a free address, or one with a removable socket, gives a listener, in at most two attempts; an error of
the system is reported at once. -/
theorem C55_replaced_partial (me : Nat) (e : Entry) (fuel : Nat) :
    listenLoop (fsListen me) fsStat (fsRemove true) (fuel + 2) e = .ret (.ok (), .liveSocket me) := by
  cases e <;> rfl

theorem C55_reported_partial {E : Type} (listen : E → Bind × E) (stat : E → Bool × E) (remove : E → E) (fuel : Nat) (env env' : E) (e : Err)
    (h : listen env = (.error e, env')) : listenLoop listen stat remove (fuel + 1) env = .ret (.error e, env') := by
  simp [listenLoop, h]

/-- C55 is violated: the documentation says that an unused socket may be removed; the loop removes whatever is at the
address, be it a regular file or the socket of a running server. -/
theorem C55_destroys_violated (me other : Nat) (e : Entry) (_he : e = .file ∨ e = .liveSocket other) (fuel : Nat) :
    listenLoop (fsListen me) fsStat (fsRemove true) (fuel + 2) e = .ret (.ok (), .liveSocket me) := C55_replaced_partial me e fuel

/-- C55 is violated: when what is at the address cannot be removed, the function does not return. -/
theorem C55_endless_violated (me : Nat) (e : Entry) (he : e ≠ .free) (fuel : Nat) :
    listenLoop (fsListen me) fsStat (fsRemove false) fuel e = .hang := by
  induction fuel with
  | zero => rfl
  | succ fuel ih => cases e <;> simp_all [listenLoop, fsListen, fsStat, fsRemove]

end Syslog5424
