import Verif.Props.EndToEndLines
/-! # C53, C72: from `Send` to `Receive` over several connections -/
namespace Syslog5424
open Spec

/-- The frame of a message. -/
def frameOf (t : Transport) (m : Message) : Bytes := match m.marshal with
  | .ret (.ok b) => t.encode b
  | _ => []

/-- The messages of a transport that the receiver gives back. -/
structure Carries (t : Transport) (Good : Message → Prop) : Prop where
  ok : ∀ m, Good m → ∃ b, m.marshal = .ret (.ok b)
  back : ∀ (ms : List Message), (∀ m ∈ ms, Good m) → ∀ reads b tok, Tok.Run t Tok.init reads (.ret (b, tok)) →
    arrived reads <+: (ms.map (frameOf t)).flatten →
    Each IsReceived (ms.take tok.out.length) tok.out ∧ ((ms.take tok.out.length).map (frameOf t)).flatten <+: arrived reads ∧
    ∀ j ≤ ms.length, ((ms.take j).map (frameOf t)).flatten <+: arrived reads → j ≤ tok.out.length

theorem each_of_ok {t : Transport} {Good : Message → Prop} (ok : ∀ m, Good m → ∃ b, m.marshal = .ret (.ok b)) (ms : List Message) (h : ∀ m ∈ ms, Good m) :
    ∃ ps, Each (fun m p => m.marshal = .ret (.ok p)) ms ps ∧ ms.map (frameOf t) = ps.map t.encode := by
  induction ms with
  | nil => exact ⟨[], .nil, rfl⟩
  | cons m ms ih =>
    obtain ⟨b, hb⟩ := ok m (h m (by simp))
    obtain ⟨ps, h1, h2⟩ := ih (fun x hx => h x (by simp [hx]))
    exact ⟨b :: ps, .cons hb h1, by simp [frameOf, hb, h2]⟩

theorem each_right {α β : Type} {R : α → β → Prop} {P : β → Prop} {as : List α} {bs : List β} (h : Each R as bs)
    (hp : ∀ a ∈ as, ∀ b, R a b → P b) : ∀ b ∈ bs, P b := by
  intro b hb
  induction h with
  | nil => simp at hb
  | cons hr _ ih =>
    rcases List.mem_cons.mp hb with rfl | hb
    · exact hp _ (by simp) _ hr
    · exact ih (fun a ha => hp a (by simp [ha])) hb

theorem carries_5425 : Carries .rfc5425 Transmissible where
  ok := fun m h => by obtain ⟨b, _, h, _⟩ := transmissible_frame h.toIntact; exact ⟨b, h⟩
  back := by
    intro ms hms reads b tok hrun hpre
    obtain ⟨ps, h1, h2⟩ := each_of_ok (t := .rfc5425) (Good := Transmissible)
      (fun m h => by obtain ⟨b, _, h, _⟩ := transmissible_frame h.toIntact; exact ⟨b, h⟩) ms hms
    have h3 : ∀ p ∈ ps, p.length < 2 ^ 62 ∧ 20 ≤ (Transport.rfc5425.encode p).length :=
      each_right h1 (fun m hm p hp => by
        obtain ⟨b, _, hb, _, _, h20⟩ := transmissible_frame (hms m hm).toIntact
        rw [hp] at hb
        simp only [Out.ret.injEq, Except.ok.injEq] at hb
        subst hb
        exact ⟨(hms m hm).size _ hp, h20⟩)
    rw [h2, ← stream_map] at hpre
    obtain ⟨n, g4, g5⟩ := C40_returned ps h3 _ _ _ hrun hpre
    have key := each_trans (S := IsReceived) (each_take h1 n) g5
      (fun m p d hm hp hd => conveys_isReceived (hms m (List.mem_of_mem_take hm)).toIntact hp hd)
    have e := each_length key
    have e1 := each_length h1
    have hle := g4.1
    have e' : tok.out.length = n := by rw [e, List.length_take]; omega
    have ht : ∀ j, ((ms.take j).map (frameOf .rfc5425)).flatten = (ps.take j).flatMap Transport.rfc5425.encode := by
      intro j; rw [List.map_take, h2, ← List.map_take, List.flatMap_def]
    refine ⟨by rw [e']; exact key, by rw [e', ht]; exact g4.2.1, ?_⟩
    intro j hj hpre
    rw [e']
    exact g4.2.2 j (by omega) (by rw [← ht]; exact hpre)

theorem carries_lines {t : Transport} {z : UInt8} (ht : t = .lfEnded ∧ z = 10 ∨ t = .zeroEnded ∧ z = 0) : Carries t (TransmissibleLine z) := by
  have hz : z = 10 ∨ z = 0 := by rcases ht with ⟨_, h⟩ | ⟨_, h⟩ <;> simp [h]
  refine ⟨fun m h => ⟨_, (line_of_message hz h).2.1⟩, ?_⟩
  intro ms hms reads b tok hrun hpre
  obtain ⟨ls, h1, h2, h3⟩ : ∃ ls, Each (fun m l => m.marshal = .ret (.ok (lineText l))) ms ls ∧
      ms.map (frameOf t) = (ls.map lineText).map t.encode ∧ ∀ l ∈ ls, Line z l.1 l.2 := by
    clear hpre
    induction ms with
    | nil => exact ⟨[], .nil, rfl, by simp⟩
    | cons m ms ih =>
      obtain ⟨h1, h2, _⟩ := line_of_message hz (hms m (by simp))
      obtain ⟨ls, g1, g2, g3⟩ := ih (fun x hx => hms x (by simp [hx]))
      refine ⟨(wireFields m, m.message) :: ls, .cons h2 g1, ?_, ?_⟩
      · rw [List.map_cons, g2, frameOf, h2]; rfl
      · intro l hl
        rcases List.mem_cons.mp hl with rfl | hl
        · exact h1
        · exact g3 l hl
  have hst : (ms.map (frameOf t)).flatten = stream t (ls.map lineText) := by rw [h2, stream, List.flatMap_def]
  rw [hst] at hpre
  have hcut : NoCutAfterDash z ls reads := by
    refine Classical.byContradiction fun hn => ?_
    have := (C41_crashes_exactly t z ht ls h3 _ _ hrun hpre).mpr hn
    cases this
  obtain ⟨b', tok', n, g3, _, g4, g5⟩ := C41_reassembly_partial t z ht ls h3 _ _ hrun hpre hcut
  simp only [Out.ret.injEq, Prod.mk.injEq] at g3
  obtain ⟨_, rfl⟩ := g3
  have key := each_trans (S := IsReceived) (each_take (each_map_right (R := fun (m : Message) p => m.marshal = .ret (.ok p)) h1) n) g5
    (fun m p d hm hp hd => conveys_isReceived (line_of_message hz (hms m (List.mem_of_mem_take hm))).2.2 hp hd)
  have e := each_length key
  have e1 := each_length h1
  have hle := g4.1
  rw [List.length_map] at hle
  have e' : tok.out.length = n := by rw [e, List.length_take]; omega
  have ht' : ∀ j, ((ms.take j).map (frameOf t)).flatten = ((ls.map lineText).take j).flatMap t.encode := by
    intro j; rw [List.map_take, h2, ← List.map_take, List.flatMap_def]
  refine ⟨by rw [e']; exact key, by rw [e', ht']; exact g4.2.1, ?_⟩
  intro j hj hpre
  rw [e']
  exact g4.2.2 j (by rw [List.length_map]; omega) (by rw [← ht']; exact hpre)

theorem frames_sent {t : Transport} (es : List Sender.Event) (h : ∀ m ∈ sent es, ∃ b, m.marshal = .ret (.ok b)) :
    frames t es = (sent es).map (frameOf t) := by
  induction es with
  | nil => rfl
  | cons e es ih =>
    cases e with
    | send m =>
      obtain ⟨b, hb⟩ := h m (by simp [sent])
      simp [frames, sent, frameOf, hb, ih (fun x hx => h x (by simp [sent, hx]))]
    | endCall => exact ih h
    | recvErr => exact ih h
    | tick => exact ih h
    | seeEnd => exact ih h
    | connect => exact ih h
    | write => exact ih h
    | tau => exact ih h

theorem flatten_filter_ne (l : List Bytes) : (l.filter fun w => w ≠ []).flatten = l.flatten := by
  induction l with
  | nil => rfl
  | cons a l ih =>
    by_cases h : a = []
    · subst h; simpa using ih
    · rw [List.filter_cons_of_pos (by simpa using h), List.flatten_cons, List.flatten_cons, ih]

theorem bytesOn_append (a b : List Sender.Conn) : bytesOn (a ++ b) = bytesOn a ++ bytesOn b := by
  simp [bytesOn]

/-- The messages that one connection of the sender carries. -/
theorem conn_carries {t : Transport} {Good : Message → Prop} (hcar : Carries t Good) (es : List Sender.Event) (s : Sender.State)
    (hs : History t es s) (hmsgs : ∀ m ∈ sent es, Good m)
    (pre post : List Sender.Conn) (c : Sender.Conn) (hc : s.conns = pre ++ c :: post)
    (n : Nat) (hcut : bytesOn pre = ((frames t es).take n).flatten) :
    c.writes.flatten <+: (((sent es).drop n).map (frameOf t)).flatten := by
  have hp := C34_prefix t es s hs
  have hw : wire s = bytesOn pre ++ (c.writes.flatten ++ bytesOn post) := by
    show bytesOn s.conns = _
    rw [hc, bytesOn_append]; simp [bytesOn]
  have hf : (frames t es).flatten = ((frames t es).take n).flatten ++ ((frames t es).drop n).flatten := by
    rw [← List.flatten_append, List.take_append_drop]
  rw [hw, hcut, hf, List.prefix_append_right_inj, frames_sent es (fun m hm => hcar.ok m (hmsgs m hm)), ← List.map_drop] at hp
  exact (List.prefix_append _ _).trans hp

/-- What one connection of the receiver gives. -/
theorem conn_received {t : Transport} {Good : Message → Prop} (hcar : Carries t Good) (es : List Sender.Event) (s : Sender.State)
    (hs : History t es s) (hmsgs : ∀ m ∈ sent es, Good m)
    (pre post : List Sender.Conn) (c : Sender.Conn) (hc : s.conns = pre ++ c :: post)
    (n : Nat) (hcut : bytesOn pre = ((frames t es).take n).flatten)
    (lenQueue : Nat) (er : List Recv.Event) (q : Recv.State) (hq : Recv.run t lenQueue Recv.init er = some q) (hcr : q.crashed = false)
    (i : Nat) (k : Recv.Conn) (hi : q.conns[i]? = some k) (hwire : arrived (readsOf i er) <+: c.writes.flatten) :
    Each IsReceived (((sent es).drop n).take (ofConn i q.got).length) (ofConn i q.got) ∧
    (k.pending = [] → ofConn i q.pipeline = [] →
      ((((sent es).drop n).take (ofConn i q.got).length).map (frameOf t)).flatten <+: arrived (readsOf i er) ∧
      ∀ j ≤ ((sent es).drop n).length, ((((sent es).drop n).take j).map (frameOf t)).flatten <+: arrived (readsOf i er) →
        j ≤ (ofConn i q.got).length) := by
  have hw := conn_carries hcar es s hs hmsgs pre post c hc n hcut
  generalize hms : (sent es).drop n = ms at hw ⊢
  obtain ⟨b, tok, g1, g2⟩ := C44_order _ _ er q hq hcr i k hi
  obtain ⟨g3, g4, g5⟩ := hcar.back ms (fun m hm => hmsgs m (by
    rw [← hms] at hm
    exact List.mem_of_mem_drop hm)) _ _ _ g1 (hwire.trans hw)
  refine ⟨?_, ?_⟩
  · rw [← g2, List.append_assoc] at g3
    have := each_prefix g3
    rwa [List.take_take, Nat.min_eq_left (by simp)] at this
  · intro hp hpipe
    rw [hp, hpipe, List.append_nil, List.append_nil] at g2
    rw [g2]
    exact ⟨g4, g5⟩

/-- **C53**, several connections. Whatever the failures and reconnections: if the connections before one of the sender carry
whole frames, `n` of them, and what has arrived on a connection of the receiver is a part of what was written to this one,
then what `Receive` has returned from it are the messages that were sent, from the `n`-th on, in order, each exactly once,
with all their fields and no error; and when nothing is left to be received, these are all whose frames have arrived. -/
theorem C53_reconnect_partial (es : List Sender.Event) (s : Sender.State) (hs : History .rfc5425 es s)
    (hmsgs : ∀ m ∈ sent es, Transmissible m)
    (pre post : List Sender.Conn) (c : Sender.Conn) (hc : s.conns = pre ++ c :: post)
    (n : Nat) (hcut : bytesOn pre = ((frames .rfc5425 es).take n).flatten)
    (lenQueue : Nat) (er : List Recv.Event) (q : Recv.State) (hq : Recv.run .rfc5425 lenQueue Recv.init er = some q) (hcr : q.crashed = false)
    (i : Nat) (k : Recv.Conn) (hi : q.conns[i]? = some k) (hwire : arrived (readsOf i er) <+: c.writes.flatten) :
    Each IsReceived (((sent es).drop n).take (ofConn i q.got).length) (ofConn i q.got) ∧
    (k.pending = [] → ofConn i q.pipeline = [] → ∀ j ≤ ((frames .rfc5425 es).drop n).length,
      (((frames .rfc5425 es).drop n).take j).flatten <+: arrived (readsOf i er) → j ≤ (ofConn i q.got).length) := by
  obtain ⟨h1, h2⟩ := conn_received carries_5425 es s hs hmsgs pre post c hc n hcut lenQueue er q hq hcr i k hi hwire
  refine ⟨h1, fun hp hpipe j hj hpre => (h2 hp hpipe).2 j ?_ ?_⟩
  · rwa [frames_sent es (fun m hm => carries_5425.ok m (hmsgs m hm)), ← List.map_drop, List.length_map] at hj
  · rwa [frames_sent es (fun m hm => carries_5425.ok m (hmsgs m hm)), ← List.map_drop, ← List.map_take] at hpre

/-- **C72**, several connections: the same with the LF and NUL transports. -/
theorem C72_reconnect_partial (t : Transport) (z : UInt8) (ht : t = .lfEnded ∧ z = 10 ∨ t = .zeroEnded ∧ z = 0)
    (es : List Sender.Event) (s : Sender.State) (hs : History t es s)
    (hmsgs : ∀ m ∈ sent es, TransmissibleLine z m)
    (pre post : List Sender.Conn) (c : Sender.Conn) (hc : s.conns = pre ++ c :: post)
    (n : Nat) (hcut : bytesOn pre = ((frames t es).take n).flatten)
    (lenQueue : Nat) (er : List Recv.Event) (q : Recv.State) (hq : Recv.run t lenQueue Recv.init er = some q) (hcr : q.crashed = false)
    (i : Nat) (k : Recv.Conn) (hi : q.conns[i]? = some k) (hwire : arrived (readsOf i er) <+: c.writes.flatten) :
    Each IsReceived (((sent es).drop n).take (ofConn i q.got).length) (ofConn i q.got) ∧
    (k.pending = [] → ofConn i q.pipeline = [] → ∀ j ≤ ((frames t es).drop n).length,
      (((frames t es).drop n).take j).flatten <+: arrived (readsOf i er) → j ≤ (ofConn i q.got).length) := by
  obtain ⟨h1, h2⟩ := conn_received (carries_lines ht) es s hs hmsgs pre post c hc n hcut lenQueue er q hq hcr i k hi hwire
  refine ⟨h1, fun hp hpipe j hj hpre => (h2 hp hpipe).2 j ?_ ?_⟩
  · rwa [frames_sent es (fun m hm => (carries_lines ht).ok m (hmsgs m hm)), ← List.map_drop, List.length_map] at hj
  · rwa [frames_sent es (fun m hm => (carries_lines ht).ok m (hmsgs m hm)), ← List.map_drop, ← List.map_take] at hpre

theorem each_take_append {α β : Type} {R : α → β → Prop} {as : List α} {xs ys : List β} (h1 : Each R (as.take xs.length) xs)
    (h2 : Each R ((as.drop xs.length).take ys.length) ys) : Each R (as.take (xs ++ ys).length) (xs ++ ys) := by
  rw [List.length_append, List.take_add]
  exact h1.append h2

theorem take_flatten_prefix (fs : List Bytes) {i j : Nat} (h : i ≤ j) : (fs.take i).flatten <+: (fs.take j).flatten := by
  obtain ⟨d, rfl⟩ : ∃ d, j = i + d := ⟨j - i, by omega⟩
  rw [List.take_add, List.flatten_append]
  exact List.prefix_append _ _

theorem prefix_antisymm {a b : Bytes} (h : a <+: b) (h' : b <+: a) : a = b :=
  h.eq_of_length (Nat.le_antisymm h.length_le h'.length_le)

/-- Everything, over all connections: `f` tells on which connection of the receiver a connection of the sender arrives. -/
theorem all_received {t : Transport} {Good : Message → Prop} (hcar : Carries t Good) (es : List Sender.Event) (s : Sender.State)
    (hs : History t es s) (hcut : CutsBetween (frames t es) s.conns) (hmsgs : ∀ m ∈ sent es, Good m)
    (hall : (frames t es).flatten <+: wire s)
    (lenQueue : Nat) (er : List Recv.Event) (q : Recv.State) (hq : Recv.run t lenQueue Recv.init er = some q) (hcr : q.crashed = false)
    (f : Nat → Nat) (hf : ∀ (j : Nat) (c : Sender.Conn), s.conns[j]? = some c → ∃ k, q.conns[f j]? = some k ∧
      arrived (readsOf (f j) er) = c.writes.flatten ∧ k.pending = [] ∧ ofConn (f j) q.pipeline = []) :
    Each IsReceived (sent es) ((List.range s.conns.length).flatMap fun j => ofConn (f j) q.got) := by
  have hfr := frames_sent (t := t) es (fun m hm => hcar.ok m (hmsgs m hm))
  have hwire : wire s = (frames t es).flatten := prefix_antisymm (C34_prefix t es s hs) hall
  -- what was written to the first connections is a number of whole frames
  have hb : ∀ n, n ≤ s.conns.length → ∃ M, bytesOn (s.conns.take n) = ((frames t es).take M).flatten := by
    intro n hn
    rcases Nat.lt_or_ge n s.conns.length with h | h
    · exact hcut _ s.conns[n] (s.conns.drop (n + 1)) (by rw [List.getElem_cons_drop, List.take_append_drop])
    · exact ⟨(frames t es).length, by rw [List.take_of_length_le h, List.take_length]; exact hwire⟩
  have key : ∀ n, n ≤ s.conns.length →
      bytesOn (s.conns.take n) = ((frames t es).take ((List.range n).flatMap fun j => ofConn (f j) q.got).length).flatten ∧
      Each IsReceived ((sent es).take ((List.range n).flatMap fun j => ofConn (f j) q.got).length) ((List.range n).flatMap fun j => ofConn (f j) q.got) := by
    intro n
    induction n with
    | zero => intro _; exact ⟨by simp [bytesOn], .nil⟩
    | succ n ih =>
      intro hn
      obtain ⟨i1, i2⟩ := ih (by omega)
      have hget : s.conns[n]? = some s.conns[n] := List.getElem?_eq_getElem (by omega)
      obtain ⟨k, k1, k2, k3, k4⟩ := hf n _ hget
      have hsplit : s.conns = s.conns.take n ++ s.conns[n] :: s.conns.drop (n + 1) := by
        rw [List.getElem_cons_drop, List.take_append_drop]
      rw [List.range_succ, List.flatMap_append, List.flatMap_cons, List.flatMap_nil, List.append_nil]
      generalize (List.range n).flatMap (fun j => ofConn (f j) q.got) = got at i1 i2 ⊢
      obtain ⟨c1, c2⟩ := conn_received hcar es s hs hmsgs _ _ _ hsplit got.length i1 lenQueue er q hq hcr (f n) k k1
        (by rw [k2]; exact List.prefix_refl _)
      obtain ⟨c2, c3⟩ := c2 k3 k4
      rw [k2] at c2 c3
      have hfd : ∀ j, (((sent es).drop got.length).take j).map (frameOf t) = ((frames t es).drop got.length).take j := by
        intro j; rw [hfr, List.map_take, List.map_drop]
      rw [hfd] at c2
      have hbn : bytesOn (s.conns.take (n + 1)) = bytesOn (s.conns.take n) ++ s.conns[n].writes.flatten := by
        rw [List.take_add_one, hget, bytesOn_append]; simp [bytesOn]
      obtain ⟨M, hM⟩ := hb (n + 1) hn
      refine ⟨?_, each_take_append i2 c1⟩
      rw [hbn, List.length_append, List.take_add, List.flatten_append, i1]
      congr 1
      -- the frames written to this connection
      refine prefix_antisymm ?_ c2
      rw [hbn, i1] at hM
      rcases Nat.lt_or_ge M got.length with hlt | hge
      · have h1 := (take_flatten_prefix (frames t es) (Nat.le_of_lt hlt)).length_le
        rw [← hM, List.length_append] at h1
        have : s.conns[n].writes.flatten = [] := List.length_eq_zero_iff.mp (by omega)
        rw [this]; exact List.nil_prefix
      · obtain ⟨d, rfl⟩ : ∃ d, M = got.length + d := ⟨M - got.length, by omega⟩
        rw [List.take_add, List.flatten_append] at hM
        have hM := List.append_cancel_left hM
        have hd : (((frames t es).drop got.length).take d).flatten =
            (((frames t es).drop got.length).take (min d ((frames t es).drop got.length).length)).flatten := by
          rw [← List.take_eq_take_min]
        rw [hM, hd]
        apply take_flatten_prefix
        refine c3 _ ?_ ?_
        · rw [hfr, ← List.map_drop, List.length_map]; exact Nat.min_le_right _ _
        · rw [hfd, ← hd, hM]; exact List.prefix_refl _
  obtain ⟨k1, k2⟩ := key _ (Nat.le_refl _)
  rw [List.take_length] at k1
  have hlen : (sent es).length ≤ ((List.range s.conns.length).flatMap fun j => ofConn (f j) q.got).length := by
    generalize ((List.range s.conns.length).flatMap fun j => ofConn (f j) q.got).length = L at k1
    refine Classical.byContradiction fun hlt => ?_
    have hne : ∀ x ∈ frames t es, x ≠ [] := by
      intro x hx
      rw [hfr] at hx
      obtain ⟨m, hm, rfl⟩ := List.mem_map.mp hx
      obtain ⟨b, hb⟩ := hcar.ok m (hmsgs m hm)
      rw [frameOf, hb]
      cases t <;> simp [Transport.encode]
    have e1 : (frames t es).flatten = ((frames t es).take L).flatten := by rw [← hwire]; exact k1
    have e2 : (frames t es).flatten = ((frames t es).take L).flatten ++ ((frames t es).drop L).flatten := by
      rw [← List.flatten_append, List.take_append_drop]
    have e3 : ((frames t es).drop L).flatten = [] := by
      have := congrArg List.length (e1.symm.trans e2)
      rw [List.length_append] at this
      exact List.length_eq_zero_iff.mp (by omega)
    cases hd : (frames t es).drop L with
    | nil =>
      have := congrArg List.length hd
      rw [hfr, List.length_drop, List.length_map] at this
      simp only [List.length_nil] at this
      omega
    | cons x r =>
      rw [hd, List.flatten_cons, List.append_eq_nil_iff] at e3
      exact hne x (List.mem_of_mem_drop (by rw [hd]; simp)) e3.1
  rwa [List.take_of_length_le hlen] at k2

/-- **C53**, several connections. If the connections were changed between two frames, everything that was sent was written,
every connection of the sender arrived completely on a connection of the receiver, and nothing is left to be received, then
`Receive` has returned every message that was sent, exactly once, in order on each connection and over the connections,
with all its fields and no error. -/
theorem C53_all_connections_partial (es : List Sender.Event) (s : Sender.State)
    (hs : History .rfc5425 es s) (hcut : CutsBetween (frames .rfc5425 es) s.conns) (hmsgs : ∀ m ∈ sent es, Transmissible m)
    (hall : (frames .rfc5425 es).flatten <+: wire s)
    (lenQueue : Nat) (er : List Recv.Event) (q : Recv.State) (hq : Recv.run .rfc5425 lenQueue Recv.init er = some q) (hcr : q.crashed = false)
    (f : Nat → Nat) (hf : ∀ (j : Nat) (c : Sender.Conn), s.conns[j]? = some c → ∃ k, q.conns[f j]? = some k ∧
      arrived (readsOf (f j) er) = c.writes.flatten ∧ k.pending = [] ∧ ofConn (f j) q.pipeline = []) :
    Each IsReceived (sent es) ((List.range s.conns.length).flatMap fun j => ofConn (f j) q.got) :=
  all_received carries_5425 es s hs hcut hmsgs hall lenQueue er q hq hcr f hf

/-- **C72**, several connections: the same with the LF and NUL transports. -/
theorem C72_all_connections_partial (t : Transport) (z : UInt8) (ht : t = .lfEnded ∧ z = 10 ∨ t = .zeroEnded ∧ z = 0)
    (es : List Sender.Event) (s : Sender.State)
    (hs : History t es s) (hcut : CutsBetween (frames t es) s.conns) (hmsgs : ∀ m ∈ sent es, TransmissibleLine z m)
    (hall : (frames t es).flatten <+: wire s)
    (lenQueue : Nat) (er : List Recv.Event) (q : Recv.State) (hq : Recv.run t lenQueue Recv.init er = some q) (hcr : q.crashed = false)
    (f : Nat → Nat) (hf : ∀ (j : Nat) (c : Sender.Conn), s.conns[j]? = some c → ∃ k, q.conns[f j]? = some k ∧
      arrived (readsOf (f j) er) = c.writes.flatten ∧ k.pending = [] ∧ ofConn (f j) q.pipeline = []) :
    Each IsReceived (sent es) ((List.range s.conns.length).flatMap fun j => ofConn (f j) q.got) :=
  all_received (carries_lines ht) es s hs hcut hmsgs hall lenQueue er q hq hcr f hf

/-- Under which circumstances connections are changed between two frames: for instance when failing writes accept nothing
(datagram sockets). -/
theorem cuts_of_clean {t : Transport} {es : List Sender.Event} {s : Sender.State} (h : History t es s)
    (hclean : ∀ nb x, .write nb (some x) ∈ es → nb = 0) : CutsBetween (frames t es) s.conns := by
  intro pre c post hc
  obtain ⟨waiting, hw⟩ := C37_datagram_partial t es s h hclean
  rw [hc, List.flatMap_append, List.filter_append, List.append_assoc] at hw
  refine ⟨((pre.flatMap (·.writes)).filter fun w => w ≠ []).length, ?_⟩
  rw [← hw, List.take_left, flatten_filter_ne, bytesOn, List.flatMap_def, List.flatten_flatten, List.map_map]; rfl

/-! The hypotheses are met by a sender whose second message is refused by its first connection and written to its second. -/

/-- The sender. -/
def demoManySent : List Sender.Event :=
  [.send demoLine, .tick, .tau, .connect none, .tau, .tau, .write demoLineFrame.length none, .tau, .tau, .tau,
   .send demoLine, .tick, .tau, .tau, .tau, .write 0 (some (.other 0)), .tau, .tau,
   .tick, .tau, .connect none, .tau, .tau, .write demoLineFrame.length none, .tau, .tau, .tau]

/-- The receiver. -/
def demoManyReceived : List Recv.Event :=
  [.tau, .acceptOk, .tau, .acceptOk, .read 1 { data := demoLineFrame }, .handoff 1,
   .read 0 { data := demoLineFrame.take 50 }, .read 0 { data := demoLineFrame.drop 50 }, .handoff 0]

example : ∀ nb x, Sender.Event.write nb (some x) ∈ demoManySent → nb = 0 := by
  intro nb x h
  simp only [demoManySent, List.mem_cons, List.not_mem_nil, or_false, Sender.Event.write.injEq, reduceCtorEq, false_or, and_false] at h
  exact h.1

example : ∃ s c0 c1, History .lfEnded demoManySent s ∧ s.conns = [c0, c1] ∧ (frames .lfEnded demoManySent).flatten <+: wire s ∧
    c0.writes.flatten = arrived (readsOf 0 demoManyReceived) ∧ c1.writes.flatten = arrived (readsOf 1 demoManyReceived) := by
  refine ⟨⟨[], [⟨[demoLineFrame, []], false⟩, ⟨[demoLineFrame], false⟩], true, false, [.write 0], false, false, false, false, .select⟩,
    ⟨[demoLineFrame, []], false⟩, ⟨[demoLineFrame], false⟩, by decide +kernel, rfl, ?_, ?_, ?_⟩ <;> decide +kernel

example : (match Recv.run .lfEnded 0 Recv.init demoManyReceived with
      | some q => !q.crashed && q.pipeline.isEmpty && decide ((ofConn 0 q.got).length = 1) && decide ((ofConn 1 q.got).length = 1) &&
        decide (q.conns.length = 2) && q.conns.all fun k => k.pending.isEmpty
      | none => false) = true := by decide +kernel

example (s : Sender.State) (h : History .lfEnded demoManySent s) : CutsBetween (frames .lfEnded demoManySent) s.conns :=
  cuts_of_clean h (by
    intro nb x h
    simp only [demoManySent, List.mem_cons, List.not_mem_nil, or_false, Sender.Event.write.injEq, reduceCtorEq, false_or, and_false] at h
    exact h.1)

end Syslog5424
