import Verif.Props.Delivery
import Verif.Spec.Reconnect
/-! # C100: delivery by a sender that reconnects -/
namespace Syslog5424
open Spec

/-! ## The connections of a sender -/

/-- Connections are added at the end, and only the last one is written to. -/
structure Grows (cs cs' : List Sender.Conn) : Prop where
  length : cs.length ≤ cs'.length
  same : ∀ j, j + 1 < cs.length → (cs'[j]?).map (·.writes) = (cs[j]?).map (·.writes)
  last : ∀ j c, j + 1 = cs.length → cs[j]? = some c → ∃ c', cs'[j]? = some c' ∧ c.writes <+: c'.writes

theorem Grows.refl (cs : List Sender.Conn) : Grows cs cs := ⟨Nat.le_refl _, fun _ _ => rfl, fun _ c _ h => ⟨c, h, List.prefix_refl _⟩⟩

theorem Grows.trans {a b c : List Sender.Conn} (h : Grows a b) (h' : Grows b c) : Grows a c := by
  refine ⟨Nat.le_trans h.length h'.length, ?_, ?_⟩
  · intro j hj
    rw [h'.same j (by have := h.length; omega), h.same j hj]
  · intro j x hj hx
    obtain ⟨y, hy, h1⟩ := h.last j x hj hx
    rcases Nat.lt_or_ge (j + 1) b.length with hlt | hge
    · have := h'.same j hlt
      rw [hy, Option.map_some] at this
      obtain ⟨z, hz, h2⟩ := Option.map_eq_some_iff.mp this
      exact ⟨z, hz, by rw [h2]; exact h1⟩
    · obtain ⟨z, hz, h2⟩ := h'.last j y (by have := h.length; omega) hy
      exact ⟨z, hz, h1.trans h2⟩

theorem grows_addWrite (d : Bytes) (cs : List Sender.Conn) : Grows cs (Sender.addWrite d cs) := by
  induction cs with
  | nil => exact .refl _
  | cons c r ih =>
    cases r with
    | nil =>
      refine ⟨by simp [Sender.addWrite], fun j hj => by simp at hj, ?_⟩
      intro j x hj hx
      have : j = 0 := by simpa using hj
      subst this
      simp only [List.getElem?_cons_zero, Option.some.injEq] at hx
      subst hx
      exact ⟨_, rfl, List.prefix_append _ _⟩
    | cons c' r =>
      rw [show Sender.addWrite d (c :: c' :: r) = c :: Sender.addWrite d (c' :: r) from rfl]
      refine ⟨by simp only [List.length_cons]; exact Nat.succ_le_succ ih.length, ?_, ?_⟩
      · intro j hj
        cases j with
        | zero => rfl
        | succ j => simp only [List.getElem?_cons_succ]; exact ih.same j (by simpa using hj)
      · intro j x hj hx
        cases j with
        | zero => simp at hj
        | succ j =>
          simp only [List.getElem?_cons_succ] at hx ⊢
          exact ih.last j x (by simpa using hj) hx

theorem grows_closeLast (cs : List Sender.Conn) : Grows cs (Sender.closeLast cs) := by
  induction cs with
  | nil => exact .refl _
  | cons c r ih =>
    cases r with
    | nil =>
      refine ⟨by simp [Sender.closeLast], fun j hj => by simp at hj, ?_⟩
      intro j x hj hx
      have : j = 0 := by simpa using hj
      subst this
      simp only [List.getElem?_cons_zero, Option.some.injEq] at hx
      subst hx
      exact ⟨_, rfl, List.prefix_refl _⟩
    | cons c' r =>
      rw [show Sender.closeLast (c :: c' :: r) = c :: Sender.closeLast (c' :: r) from rfl]
      refine ⟨by simp only [List.length_cons]; exact Nat.succ_le_succ ih.length, ?_, ?_⟩
      · intro j hj
        cases j with
        | zero => rfl
        | succ j => simp only [List.getElem?_cons_succ]; exact ih.same j (by simpa using hj)
      · intro j x hj hx
        cases j with
        | zero => simp at hj
        | succ j =>
          simp only [List.getElem?_cons_succ] at hx ⊢
          exact ih.last j x (by simpa using hj) hx

theorem grows_new (cs : List Sender.Conn) (c : Sender.Conn) : Grows cs (cs ++ [c]) := by
  refine ⟨by simp, ?_, ?_⟩
  · intro j hj; rw [List.getElem?_append_left (by omega)]
  · intro j x hj hx; exact ⟨x, by rw [List.getElem?_append_left (by omega)]; exact hx, List.prefix_refl _⟩

theorem grows_step {t : Transport} {s s' : Sender.State} {e : Sender.Event} (h : Sender.step t s e = some s') : Grows s.conns s'.conns := by
  obtain ⟨_, htr⟩ := Sender.step_tr h
  cases htr
  all_goals first
    | exact .refl _
    | exact grows_new _ _
    | exact grows_addWrite _ _
    | exact grows_closeLast _

theorem grows_exec {t : Transport} {ev : Nat → Option Sender.Event} {st : Nat → Sender.State} (hx : SenderExec t ev st) {n m : Nat} (h : n ≤ m) :
    Grows (st n).conns (st m).conns :=
  stays hx (fun s => Grows (st n).conns s.conns) n (.refl _) (fun k _ e he hk => hk.trans (grows_step (hx.event k e he))) m h

theorem connBytes_same {s s' : Sender.State} (h : Grows s.conns s'.conns) {j : Nat} (hj : j + 1 < s.conns.length) :
    connBytes j s' = connBytes j s := by
  have := h.same j hj
  unfold connBytes
  have e : ∀ o : Option Sender.Conn, o.map (fun c => c.writes.flatten) = (o.map (·.writes)).map List.flatten := by intro o; cases o <;> rfl
  rw [e, e, this]

theorem connBytes_grows {s s' : Sender.State} (h : Grows s.conns s'.conns) (j : Nat) : connBytes j s <+: connBytes j s' := by
  rcases Nat.lt_or_ge (j + 1) s.conns.length with h1 | h1
  · rw [connBytes_same h h1]; exact List.prefix_refl _
  rcases Nat.lt_or_ge j s.conns.length with h2 | h2
  · obtain ⟨c', h3, h4⟩ := h.last j s.conns[j] (by omega) (List.getElem?_eq_getElem h2)
    unfold connBytes
    rw [List.getElem?_eq_getElem h2, h3]
    obtain ⟨r, hr⟩ := h4
    simp only [Option.map_some, Option.getD_some, ← hr, List.flatten_append]
    exact List.prefix_append _ _
  · unfold connBytes
    rw [List.getElem?_eq_none h2]
    exact List.nil_prefix

theorem bytesOn_take_succ (s : Sender.State) (j : Nat) : bytesOn (s.conns.take (j + 1)) = bytesOn (s.conns.take j) ++ connBytes j s := by
  rw [List.take_add_one, bytesOn_append]
  congr 1
  unfold connBytes bytesOn
  cases s.conns[j]? <;> simp

theorem bytesOn_same {s s' : Sender.State} (h : Grows s.conns s'.conns) (j : Nat) (hj : j < s.conns.length) :
    bytesOn (s'.conns.take j) = bytesOn (s.conns.take j) := by
  induction j with
  | zero => rfl
  | succ j ih => rw [bytesOn_take_succ, bytesOn_take_succ, ih (by omega), connBytes_same h hj]

/-! ## What was received stays received -/

theorem got_exec {t : Transport} {lenQueue : Nat} {er : Nat → Option Recv.Event} {sr : Nat → Recv.State} (hx : ReceiverExec t lenQueue er sr)
    {n m : Nat} (h : n ≤ m) : (sr n).got <+: (sr m).got := by
  refine stays hx (fun s => (sr n).got <+: s.got) n (List.prefix_refl _) ?_ m h
  intro k _ e he hk
  obtain ⟨h1, h2, _⟩ := Recv.step_fifo (hx.event k e he)
  refine hk.trans ?_
  exact List.prefix_of_prefix_length_le ((List.prefix_append _ _).trans h1) (List.prefix_append _ _) h2

theorem ofConn_prefix {i : Nat} {a b : List (Nat × Tok.Delivered)} (h : a <+: b) : ofConn i a <+: ofConn i b := by
  obtain ⟨r, rfl⟩ := h
  unfold ofConn
  rw [List.filterMap_append]
  exact List.prefix_append _ _

/-- Finitely many moments have a common later one. -/
theorem common_moment (P : Nat → Nat → Prop) (hmono : ∀ j n m, n ≤ m → P j n → P j m) (k : Nat) (h : ∀ j, j < k → ∃ n, P j n) (n0 : Nat) :
    ∃ n, n0 ≤ n ∧ ∀ j, j < k → P j n := by
  induction k with
  | zero => exact ⟨n0, Nat.le_refl _, fun j hj => absurd hj (by omega)⟩
  | succ k ih =>
    obtain ⟨n, hn, h1⟩ := ih fun j hj => h j (by omega)
    obtain ⟨m, hm⟩ := h k (by omega)
    refine ⟨max n m, by omega, ?_⟩
    intro j hj
    rcases Nat.lt_or_ge j k with h2 | h2
    · exact hmono j n _ (by omega) (h1 j h2)
    · have : j = k := by omega
      subst this
      exact hmono j m _ (by omega) hm

/-! ## One moment -/

/-- From what is known of each connection to all of them. `B j` is what was written to connection `j` at an earlier moment,
when the sender had `K` connections. -/
theorem over_connections {t : Transport} (es : List Sender.Event) (s : Sender.State) (hcut : CutsBetween (frames t es) s.conns)
    (hlen : (frames t es).length = (sent es).length)
    (got : Nat → List Tok.Delivered) (B : Nat → Bytes) (K : Nat) (hK : K + 1 ≤ s.conns.length)
    (hpart : ∀ j, j ≤ K → ∀ n, bytesOn (s.conns.take j) = ((frames t es).take n).flatten →
      Each IsReceived (((sent es).drop n).take (got j).length) (got j) ∧
      (((frames t es).drop n).take (got j).length).flatten <+: connBytes j s ∧
      ∀ d ≤ ((frames t es).drop n).length, (((frames t es).drop n).take d).flatten <+: B j → d ≤ (got j).length)
    (hB : ∀ j, j < K → B j = connBytes j s)
    (N : Nat) (hN : N ≤ (sent es).length) (hwr : ((frames t es).take N).flatten <+: bytesOn (s.conns.take K) ++ B K) :
    Each IsReceived ((sent es).take N) (((List.range (K + 1)).flatMap got).take N) := by
  have key : ∀ j, j ≤ K →
      bytesOn (s.conns.take j) = ((frames t es).take ((List.range j).flatMap got).length).flatten ∧
      Each IsReceived ((sent es).take ((List.range j).flatMap got).length) ((List.range j).flatMap got) := by
    intro j
    induction j with
    | zero => intro _; exact ⟨by simp [bytesOn], .nil⟩
    | succ j ih =>
      intro hj
      obtain ⟨i1, i2⟩ := ih (by omega)
      rw [List.range_succ, List.flatMap_append, List.flatMap_cons, List.flatMap_nil, List.append_nil]
      generalize (List.range j).flatMap got = G at i1 i2 ⊢
      obtain ⟨c1, c2, c3⟩ := hpart j (by omega) G.length i1
      rw [hB j (by omega)] at c3
      refine ⟨?_, each_take_append i2 c1⟩
      obtain ⟨M, hM⟩ : ∃ M, bytesOn (s.conns.take (j + 1)) = ((frames t es).take M).flatten :=
        hcut _ s.conns[j + 1] (s.conns.drop (j + 1 + 1)) (by rw [List.getElem_cons_drop, List.take_append_drop])
      rw [bytesOn_take_succ, i1] at hM
      rw [bytesOn_take_succ, List.length_append, List.take_add, List.flatten_append, i1]
      congr 1
      refine prefix_antisymm ?_ c2
      rcases Nat.lt_or_ge M G.length with hlt | hge
      · have h1 := (take_flatten_prefix (frames t es) (Nat.le_of_lt hlt)).length_le
        rw [← hM, List.length_append] at h1
        have : connBytes j s = [] := List.length_eq_zero_iff.mp (by omega)
        rw [this]; exact List.nil_prefix
      · obtain ⟨d, rfl⟩ : ∃ d, M = G.length + d := ⟨M - G.length, by omega⟩
        rw [List.take_add, List.flatten_append] at hM
        have hM := List.append_cancel_left hM
        have hd : (((frames t es).drop G.length).take d).flatten =
            (((frames t es).drop G.length).take (min d ((frames t es).drop G.length).length)).flatten := by
          rw [← List.take_eq_take_min]
        rw [hM, hd]
        apply take_flatten_prefix
        refine c3 _ (Nat.min_le_right _ _) ?_
        rw [← hd, hM]; exact List.prefix_refl _
  obtain ⟨i1, i2⟩ := key K (Nat.le_refl _)
  rw [List.range_succ, List.flatMap_append, List.flatMap_cons, List.flatMap_nil, List.append_nil]
  generalize (List.range K).flatMap got = G at i1 i2 ⊢
  obtain ⟨c1, c2, c3⟩ := hpart K (Nat.le_refl _) G.length i1
  have hall := each_take_append i2 c1
  have hNL : N ≤ (G ++ got K).length := by
    rw [List.length_append]
    rcases Nat.lt_or_ge G.length N with hlt | hge
    · obtain ⟨d, rfl⟩ : ∃ d, N = G.length + d := ⟨N - G.length, by omega⟩
      rw [List.take_add, List.flatten_append, i1, List.prefix_append_right_inj] at hwr
      have := c3 d (by rw [List.length_drop]; omega) hwr
      omega
    · omega
  have := each_take hall N
  rwa [List.take_take, Nat.min_eq_left hNL] at this

/-! ## Every moment -/

theorem delivered_over_stays {t : Transport} {Good : Message → Prop} (hcar : Carries t Good)
    (ev : Nat → Option Sender.Event) (st : Nat → Sender.State) (hx : SenderExec t ev st)
    (hcut : ∀ n, CutsBetween (frames t (past ev n)) (st n).conns) (hmsgs : ∀ n, ∀ m ∈ sent (past ev n), Good m)
    (lenQueue : Nat) (er : Nat → Option Recv.Event) (sr : Nat → Recv.State)
    (hxr : ReceiverExec t lenQueue er sr) (hcons : Consumed t lenQueue er sr) (herr : ErrorsDrained sr)
    (hc : ∀ n, (sr n).crashed = false) (f : Nat → Nat)
    (hopen : ∀ j, Opened st j → Served t lenQueue (f j) er sr ∧ ∃ n, f j < (sr n).conns.length)
    (hlink : Links st f er) (n : Nat) (hwr : ∃ n', n ≤ n' ∧ (frames t (past ev n)).flatten <+: wire (st n')) :
    ∃ m k, ∀ m', m ≤ m' → Each IsReceived (sent (past ev n)) ((receivedOver f k (sr m').got).take (sent (past ev n)).length) := by
  have hok : ∀ k, ∀ m ∈ sent (past ev k), ∃ b, m.marshal = .ret (.ok b) := fun k m hm => hcar.ok m (hmsgs k m hm)
  obtain ⟨n0, hn0, hf⟩ := hwr
  rcases Nat.eq_zero_or_pos (st n0).conns.length with hz | hpos
  · -- nothing was sent
    have hw0 : wire (st n0) = [] := by
      unfold wire; rw [List.length_eq_zero_iff.mp hz]; rfl
    rw [hw0, List.prefix_nil] at hf
    have : sent (past ev n) = [] := by
      cases hs : sent (past ev n) with
      | nil => rfl
      | cons m ms =>
        exfalso
        obtain ⟨b, hb⟩ := hok n m (by rw [hs]; simp)
        rw [frames_sent _ (hok n), hs, List.map_cons, List.flatten_cons, List.append_eq_nil_iff] at hf
        have h1 := hf.1
        rw [frameOf, hb] at h1
        cases t <;> simp [Transport.encode] at h1
    rw [this]
    exact ⟨0, 0, fun _ _ => .nil⟩
  obtain ⟨K, hK⟩ : ∃ K, (st n0).conns.length = K + 1 := ⟨(st n0).conns.length - 1, by omega⟩
  have hop : ∀ j, j < K + 1 → Opened st j := fun j hj => ⟨n0, by omega⟩
  -- what was written at the moment `n0` has arrived and been received
  let P : Nat → Nat → Prop := fun j m => f j < (sr m).conns.length ∧ ∃ m1 b tok, m1 ≤ m ∧ connBytes j (st n0) <+: arrived (readsOf (f j) (past er m1)) ∧
      Tok.Run t Tok.init (readsOf (f j) (past er m1)) (.ret (b, tok)) ∧ tok.out <+: ofConn (f j) (sr m).got
  have hmono : ∀ j a b, a ≤ b → P j a → P j b := by
    rintro j a b hab ⟨h0, m1, b', tok, h1, h2, h3, h4⟩
    refine ⟨?_, m1, b', tok, by omega, h2, h3, h4.trans (ofConn_prefix (got_exec hxr hab))⟩
    obtain ⟨c', h, _⟩ := Recv.conn_stays hxr hc (List.getElem?_eq_getElem h0) hab
    rcases Nat.lt_or_ge (f j) (sr b).conns.length with h5 | h5
    · exact h5
    · rw [List.getElem?_eq_none h5] at h; cases h
  obtain ⟨M0, _, hM0⟩ := common_moment P hmono (K + 1) (by
    intro j hj
    obtain ⟨hserve, a, ha⟩ := hopen j (hop j hj)
    obtain ⟨m1, hm1⟩ := hlink.live j (hop j hj) n0
    have stay : ∀ m, a ≤ m → f j < (sr m).conns.length := by
      intro m hm
      obtain ⟨c', h, _⟩ := Recv.conn_stays hxr hc (List.getElem?_eq_getElem ha) hm
      rcases Nat.lt_or_ge (f j) (sr m).conns.length with h5 | h5
      · exact h5
      · rw [List.getElem?_eq_none h5] at h; cases h
    obtain ⟨m2, b, tok, g0, g1, g2⟩ := C83_received t lenQueue er sr hxr hcons herr hc (f j) hserve (max a m1) (stay _ (Nat.le_max_left _ _))
    exact ⟨m2, stay m2 (by omega), max a m1, b, tok, g0, hm1.trans (arrived_past_prefix _ er (Nat.le_max_right _ _)), g1, g2⟩) 0
  refine ⟨M0, K + 1, fun M hMM => ?_⟩
  have hM : ∀ j, j < K + 1 → P j M := fun j hj => hmono j M0 M hMM (hM0 j hj)
  -- a moment of the sender at which all that has arrived was written
  obtain ⟨n1, hn1, hN⟩ := common_moment (fun j n => arrived (readsOf (f j) (past er M)) <+: connBytes j (st n))
    (fun j a b hab h => h.trans (connBytes_grows (grows_exec hx hab) j)) (K + 1) (fun j hj => hlink.faithful j (hop j hj) M) n0
  have hg := grows_exec hx hn1
  have hlen : (frames t (past ev n1)).length = (sent (past ev n1)).length := by rw [frames_sent _ (hok n1), List.length_map]
  obtain ⟨r, hr⟩ := sent_past_prefix ev (show n ≤ n1 by omega)
  have htake : (sent (past ev n1)).take (sent (past ev n)).length = sent (past ev n) := by rw [← hr, List.take_left]
  have hft : (frames t (past ev n1)).take (sent (past ev n)).length = frames t (past ev n) := by
    rw [frames_sent _ (hok n1), frames_sent _ (hok n), ← List.map_take, htake]
  have hnK : K < (st n1).conns.length := by have := hg.length; omega
  have hconn : ∀ j (hj : j ≤ K), ∃ c, (st n1).conns[j]? = some c ∧ connBytes j (st n1) = c.writes.flatten := by
    intro j hj
    refine ⟨(st n1).conns[j]'(by omega), List.getElem?_eq_getElem _, ?_⟩
    unfold connBytes
    rw [List.getElem?_eq_getElem (by omega)]
    rfl
  have res := over_connections (t := t) (past ev n1) (st n1) (hcut n1) hlen (fun j => ofConn (f j) (sr M).got) (fun j => connBytes j (st n0)) K hnK
    (by
      intro j hj k hcutj
      obtain ⟨c, hcj, hcb⟩ := hconn j hj
      obtain ⟨h0, m1, b, tok, h1, h2, h3, h4⟩ := hM j (by omega)
      have hsplit : (st n1).conns = (st n1).conns.take j ++ c :: (st n1).conns.drop (j + 1) := by
        have hlt : j < (st n1).conns.length := by omega
        have : (st n1).conns[j] = c := by
          rw [List.getElem?_eq_getElem hlt] at hcj
          exact Option.some.inj hcj
        rw [← this, List.getElem_cons_drop, List.take_append_drop]
      have hh := Sender.history_past hx n1
      have hw := conn_carries hcar _ _ hh (hmsgs n1) _ _ c hsplit k hcutj
      have harrM : arrived (readsOf (f j) (past er M)) <+: c.writes.flatten := by rw [← hcb]; exact hN j (by omega)
      obtain ⟨q1, _⟩ := conn_received hcar _ _ hh (hmsgs n1) _ _ c hsplit k hcutj lenQueue _ _ (Recv.history_past hxr M) (hc M) (f j) _
        (List.getElem?_eq_getElem h0) harrM
      have hfd : ∀ d, ((((sent (past ev n1)).drop k).take d).map (frameOf t)) = ((frames t (past ev n1)).drop k).take d := by
        intro d; rw [frames_sent _ (hok n1), List.map_take, List.map_drop]
      refine ⟨q1, ?_, ?_⟩
      · obtain ⟨b', tok', g1, g2⟩ := C44_order _ _ _ _ (Recv.history_past hxr M) (hc M) (f j) _ (List.getElem?_eq_getElem h0)
        obtain ⟨_, g4, _⟩ := hcar.back _ (fun m hm => hmsgs n1 m (List.mem_of_mem_drop hm)) _ _ _ g1 (harrM.trans hw)
        rw [hfd] at g4
        rw [hcb]
        refine List.IsPrefix.trans ?_ (g4.trans harrM)
        apply take_flatten_prefix
        rw [← g2]
        simp only [List.length_append]
        omega
      · intro d hd hpre
        obtain ⟨_, _, g5⟩ := hcar.back _ (fun m hm => hmsgs n1 m (List.mem_of_mem_drop hm)) _ _ _ h3
          (((arrived_past_prefix (f j) er h1).trans harrM).trans hw)
        have := g5 d (by
          rw [frames_sent _ (hok n1), ← List.map_drop, List.length_map] at hd
          exact hd) (by rw [hfd]; exact hpre.trans h2)
        exact Nat.le_trans this h4.length_le)
    (fun j hj => (connBytes_same hg (by omega)).symm)
    (sent (past ev n)).length (by rw [← hr]; simp) (by
      rw [hft, bytesOn_same hg K (by omega), ← bytesOn_take_succ, ← hK, List.take_length]
      exact hf)
  rw [htake] at res
  exact res

theorem delivered_over {t : Transport} {Good : Message → Prop} (hcar : Carries t Good)
    (ev : Nat → Option Sender.Event) (st : Nat → Sender.State) (hx : SenderExec t ev st)
    (hcut : ∀ n, CutsBetween (frames t (past ev n)) (st n).conns) (hmsgs : ∀ n, ∀ m ∈ sent (past ev n), Good m)
    (lenQueue : Nat) (er : Nat → Option Recv.Event) (sr : Nat → Recv.State)
    (hxr : ReceiverExec t lenQueue er sr) (hcons : Consumed t lenQueue er sr) (herr : ErrorsDrained sr)
    (hc : ∀ n, (sr n).crashed = false) (f : Nat → Nat)
    (hopen : ∀ j, Opened st j → Served t lenQueue (f j) er sr ∧ ∃ n, f j < (sr n).conns.length)
    (hlink : Links st f er) (n : Nat) (hwr : ∃ n', n ≤ n' ∧ (frames t (past ev n)).flatten <+: wire (st n')) :
    ∃ m k, Each IsReceived (sent (past ev n)) ((receivedOver f k (sr m).got).take (sent (past ev n)).length) := by
  obtain ⟨m, k, h⟩ := delivered_over_stays hcar ev st hx hcut hmsgs lenQueue er sr hxr hcons herr hc f hopen hlink n hwr
  exact ⟨m, k, h m (Nat.le_refl _)⟩

/-- **C100.** A sender that keeps running and reconnects when a write fails, any number of times until the network has
recovered, over a network that loses nothing, to a receiver that keeps being asked: every message given to `Send` is
returned by `Receive`, eventually, in order on each connection and over the connections, each once, with all its fields
and no error, as long as connections are changed between two frames. (RFC 5425; `End` is not called; any queue length, any
interleaving, any segmentation, any other connections of the receiver.) Missing: a connection that is changed inside a
frame, see `C100_midframe_violated`. -/
theorem C100_delivered_partial (ev : Nat → Option Sender.Event) (st : Nat → Sender.State) (hx : SenderExec .rfc5425 ev st)
    (hrun : Running .rfc5425 ev st) (hread : ErrorsRead st) (hrec : Recovers ev) (hend : ∀ n, (st n).endAsked = false)
    (hcs : ∀ n, (st n).crashed = false)
    (hcut : ∀ n, CutsBetween (frames .rfc5425 (past ev n)) (st n).conns) (hmsgs : ∀ n, ∀ m ∈ sent (past ev n), Transmissible m)
    (lenQueue : Nat) (er : Nat → Option Recv.Event) (sr : Nat → Recv.State)
    (hxr : ReceiverExec .rfc5425 lenQueue er sr) (hcons : Consumed .rfc5425 lenQueue er sr) (herr : ErrorsDrained sr)
    (hc : ∀ n, (sr n).crashed = false) (f : Nat → Nat)
    (hopen : ∀ j, Opened st j → Served .rfc5425 lenQueue (f j) er sr ∧ ∃ n, f j < (sr n).conns.length)
    (hlink : Links st f er) (n : Nat) :
    ∃ m k, Each IsReceived (sent (past ev n)) ((receivedOver f k (sr m).got).take (sent (past ev n)).length) :=
  delivered_over carries_5425 ev st hx hcut hmsgs lenQueue er sr hxr hcons herr hc f hopen hlink n
    (C82_written _ ev st hx hrun hread hrec hend hcs n)

/-- **C100**, with the LF and NUL transports. -/
theorem C100_lines_partial (t : Transport) (z : UInt8) (ht : t = .lfEnded ∧ z = 10 ∨ t = .zeroEnded ∧ z = 0)
    (ev : Nat → Option Sender.Event) (st : Nat → Sender.State) (hx : SenderExec t ev st)
    (hrun : Running t ev st) (hread : ErrorsRead st) (hrec : Recovers ev) (hend : ∀ n, (st n).endAsked = false)
    (hcs : ∀ n, (st n).crashed = false)
    (hcut : ∀ n, CutsBetween (frames t (past ev n)) (st n).conns) (hmsgs : ∀ n, ∀ m ∈ sent (past ev n), TransmissibleLine z m)
    (lenQueue : Nat) (er : Nat → Option Recv.Event) (sr : Nat → Recv.State)
    (hxr : ReceiverExec t lenQueue er sr) (hcons : Consumed t lenQueue er sr) (herr : ErrorsDrained sr)
    (hc : ∀ n, (sr n).crashed = false) (f : Nat → Nat)
    (hopen : ∀ j, Opened st j → Served t lenQueue (f j) er sr ∧ ∃ n, f j < (sr n).conns.length)
    (hlink : Links st f er) (n : Nat) :
    ∃ m k, Each IsReceived (sent (past ev n)) ((receivedOver f k (sr m).got).take (sent (past ev n)).length) :=
  delivered_over (carries_lines ht) ev st hx hcut hmsgs lenQueue er sr hxr hcons herr hc f hopen hlink n
    (C82_written _ ev st hx hrun hread hrec hend hcs n)

/-- **C100.** Connections are changed between two frames at every moment if every write that fails has accepted nothing (as
on a connection that the peer has reset). -/
theorem C100_clean (t : Transport) (ev : Nat → Option Sender.Event) (st : Nat → Sender.State) (hx : SenderExec t ev st)
    (hclean : ∀ n nb e, ev n = some (.write nb (some e)) → nb = 0) (n : Nat) : CutsBetween (frames t (past ev n)) (st n).conns := by
  refine cuts_of_clean (Sender.history_past hx n) ?_
  intro nb x hmem
  simp only [past, List.mem_filterMap, List.mem_range] at hmem
  obtain ⟨k, _, hk⟩ := hmem
  exact hclean k nb x hk

/-! ## an execution that meets the hypotheses

The sender of `C73` whose second message is refused by its first connection: the error is read, a second connection is
made, and afterwards only the ticker fires. -/

def againForever : List Sender.Event := demoManySent ++ [.recvErr (.write 0), .tick, .tau, .tau, .tau, .tau]

theorem againForever_steps : ∀ i, i < 33 → (match againForever[i]? with | some e => Sender.step .lfEnded (after .lfEnded againForever i) e | none => some (after .lfEnded againForever i)) =
      some (after .lfEnded againForever (if i + 1 = 33 then 28 else i + 1)) := by decide +kernel

theorem againForever_conns : ∀ i, i < 33 → (after .lfEnded againForever i).conns.length = (if i ≤ 3 then 0 else if i ≤ 20 then 1 else 2) ∧
    connBytes 0 (after .lfEnded againForever i) = (if i ≤ 6 then [] else demoLineFrame) ∧
    connBytes 1 (after .lfEnded againForever i) = (if i ≤ 23 then [] else demoLineFrame) := by decide +kernel

theorem demoManyReceived_run : ∃ q, Recv.run .lfEnded 0 Recv.init demoManyReceived = some q ∧ q.crashed = false ∧ q.pipeline = [] ∧ q.errs = 0 ∧
    q.conns.length = 2 ∧ (∀ c ∈ q.conns, c.pending = [] ∧ c.errPending = false) ∧ q.got.length = 2 ∧ ∀ x ∈ q.got, x.1 < 2 := by
  have h : (match Recv.run .lfEnded 0 Recv.init demoManyReceived with
      | some q => !q.crashed && q.pipeline.isEmpty && decide (q.errs = 0) && decide (q.conns.length = 2) &&
        (q.conns.all fun c => c.pending.isEmpty && !c.errPending) && decide (q.got.length = 2) && q.got.all fun x => decide (x.1 < 2)
      | none => false) = true := by decide +kernel
  cases hq : Recv.run .lfEnded 0 Recv.init demoManyReceived with
  | none => rw [hq] at h; cases h
  | some q =>
    rw [hq] at h
    simp only [Bool.and_eq_true, Bool.not_eq_true', List.isEmpty_iff, decide_eq_true_eq, List.all_eq_true] at h
    exact ⟨q, rfl, h.1.1.1.1.1.1, h.1.1.1.1.1.2, h.1.1.1.1.2, h.1.1.1.2, h.1.1.2, h.1.2, h.2⟩

theorem demoMany_past : ∀ m, past (fun n => demoManyReceived[n]?) m = demoManyReceived.take m := by
  intro m
  induction m with
  | zero => rfl
  | succ m ih => rw [past_succ, ih, List.take_add_one]

theorem mem_of_sent {m : Message} : ∀ {es : List Sender.Event}, m ∈ sent es → Sender.Event.send m ∈ es
  | [], h => by simp [sent] at h
  | e :: r, h => by
    cases e with
    | send a =>
      simp only [sent, List.mem_cons] at h
      rcases h with rfl | h
      · exact List.mem_cons_self
      · exact List.mem_cons_of_mem _ (mem_of_sent h)
    | _ => exact List.mem_cons_of_mem _ (mem_of_sent h)

theorem againForever_mem {n : Nat} {e : Sender.Event} (h : lassoEv againForever 28 5 n = some e) : e ∈ againForever :=
  List.mem_of_getElem? h

theorem againForever_meets : SenderExec .lfEnded (lassoEv againForever 28 5) (lassoSt .lfEnded againForever 28 5) ∧ Running .lfEnded (lassoEv againForever 28 5) (lassoSt .lfEnded againForever 28 5) ∧ ErrorsRead (lassoSt .lfEnded againForever 28 5) ∧ Recovers (lassoEv againForever 28 5) ∧
    (∀ n, ((lassoSt .lfEnded againForever 28 5) n).endAsked = false) ∧ (∀ n, ((lassoSt .lfEnded againForever 28 5) n).crashed = false) ∧ (∀ n nb e, (lassoEv againForever 28 5) n = some (.write nb (some e)) → nb = 0) ∧
    sent (past (lassoEv againForever 28 5) 11) = [demoLine, demoLine] ∧ (∀ n, ∀ m ∈ sent (past (lassoEv againForever 28 5) n), m = demoLine) ∧
    ReceiverExec .lfEnded 0 (fun n => demoManyReceived[n]?) (Recv.finSt .lfEnded 0 demoManyReceived) ∧ Consumed .lfEnded 0 (fun n => demoManyReceived[n]?) (Recv.finSt .lfEnded 0 demoManyReceived) ∧ ErrorsDrained (Recv.finSt .lfEnded 0 demoManyReceived) ∧ (∀ n, ((Recv.finSt .lfEnded 0 demoManyReceived) n).crashed = false) ∧
    (∀ j, Opened (lassoSt .lfEnded againForever 28 5) j → Served .lfEnded 0 j (fun n => demoManyReceived[n]?) (Recv.finSt .lfEnded 0 demoManyReceived) ∧ ∃ n, j < ((Recv.finSt .lfEnded 0 demoManyReceived) n).conns.length) ∧ Opened (lassoSt .lfEnded againForever 28 5) 1 ∧ Links (lassoSt .lfEnded againForever 28 5) id (fun n => demoManyReceived[n]?) := by
  obtain ⟨q, hq, h1, h2, h3, h4, h5, -, -⟩ := demoManyReceived_run
  have hfair := fun j => Recv.fin_fair hq h2 (by rw [h3]; decide) h5 j
  have hopen : ∀ j, Opened (lassoSt .lfEnded againForever 28 5) j → j = 0 ∨ j = 1 := by
    rintro j ⟨n, hn⟩
    have := (againForever_conns _ (lasso_succ 28 5 n (by omega)).1).1
    unfold lassoSt at hn
    rw [this] at hn
    split at hn
    · omega
    · split at hn <;> omega
  refine ⟨lasso_exec _ _ 28 5 (by omega) againForever_steps, ?_, ?_, ⟨28, ?_⟩, ?_, ?_, ?_, ?_, ?_,
    Recv.fin_exec hq, (hfair 0).1, (hfair 0).2.1, Recv.fin_alive hq h1, ?_, ⟨28, ?_⟩, ⟨?_, ?_⟩⟩
  · intro n
    obtain ⟨m, hm, h⟩ := lasso_again 28 5 0 (by omega) n
    exact ⟨m, hm, Or.inl ⟨.tick, by simp only [lassoEv, h]; rfl, rfl⟩⟩
  · intro n _
    obtain ⟨m, hm, h⟩ := lasso_again 28 5 0 (by omega) n
    refine ⟨m, hm, ?_⟩
    simp only [lassoSt, h]
    decide +kernel
  · intro n hn e he
    have hi : 28 ≤ lasso 28 5 n := by unfold lasso; split <;> omega
    have hi' := (lasso_succ 28 5 n (by omega)).1
    have hall : ∀ i, i < 33 → 28 ≤ i → (againForever[i]?).map fails = some false := by decide +kernel
    have := hall _ hi' hi
    unfold lassoEv at he
    rw [he] at this
    exact Option.some.inj this
  · exact lasso_all 28 5 (by omega) (fun i => (after .lfEnded againForever i).endAsked = false) (by decide +kernel)
  · exact lasso_all 28 5 (by omega) (fun i => (after .lfEnded againForever i).crashed = false) (by decide +kernel)
  · intro n nb x he
    have h := againForever_mem he
    simp only [againForever, demoManySent, List.cons_append, List.nil_append, List.mem_cons, List.not_mem_nil, or_false, Sender.Event.write.injEq, reduceCtorEq, false_or, and_false] at h
    exact h.1
  · rfl
  · intro n m hm
    have := mem_of_sent hm
    simp only [past, List.mem_filterMap, List.mem_range] at this
    obtain ⟨k, _, hk⟩ := this
    have h := againForever_mem hk
    simp only [againForever, demoManySent, List.cons_append, List.nil_append, List.mem_cons, List.not_mem_nil, or_false, Sender.Event.send.injEq, reduceCtorEq, false_or, or_self] at h
    exact h
  · intro j hj
    refine ⟨(hfair j).2.2, 9, ?_⟩
    rw [Recv.fin_end hq (by decide)]
    rcases hopen j hj with rfl | rfl <;> omega
  · decide +kernel
  · intro j hj m
    refine ⟨28, ?_⟩
    have hb : connBytes j (lassoSt .lfEnded againForever 28 5 28) = demoLineFrame := by
      rcases hopen j hj with rfl | rfl <;> decide +kernel
    rw [hb]
    have ha : arrived (readsOf j demoManyReceived) = demoLineFrame := by
      rcases hopen j hj with rfl | rfl <;> decide +kernel
    obtain ⟨r, hr⟩ := List.take_prefix m demoManyReceived
    rw [← hr, Recv.readsOf_append] at ha
    rw [demoMany_past, ← ha]
    simp only [arrived, List.flatMap_append]
    exact List.prefix_append _ _
  · intro j hj n
    refine ⟨9, ?_⟩
    have ha : arrived (readsOf j (past (fun n => demoManyReceived[n]?) 9)) = demoLineFrame := by
      rcases hopen j hj with rfl | rfl <;> decide +kernel
    show _ <+: arrived (readsOf j _)
    rw [ha]
    have := (againForever_conns _ (lasso_succ 28 5 n (by omega)).1).2
    unfold lassoSt
    rcases hopen j hj with rfl | rfl
    · rw [this.1]; split
      · exact List.nil_prefix
      · exact List.prefix_refl _
    · rw [this.2]; split
      · exact List.nil_prefix
      · exact List.prefix_refl _

example : ∃ ev st er sr, SenderExec .lfEnded ev st ∧ Running .lfEnded ev st ∧ ErrorsRead st ∧ Recovers ev ∧
    (∀ n, (st n).endAsked = false) ∧ (∀ n, (st n).crashed = false) ∧ (∀ n nb e, ev n = some (.write nb (some e)) → nb = 0) ∧
    sent (past ev 11) = [demoLine, demoLine] ∧ (∀ n, ∀ m ∈ sent (past ev n), m = demoLine) ∧
    ReceiverExec .lfEnded 0 er sr ∧ Consumed .lfEnded 0 er sr ∧ ErrorsDrained sr ∧ (∀ n, (sr n).crashed = false) ∧
    (∀ j, Opened st j → Served .lfEnded 0 j er sr ∧ ∃ n, j < (sr n).conns.length) ∧ Opened st 1 ∧ Links st id er :=
  ⟨_, _, _, _, againForever_meets⟩

/-! ## a connection that is changed inside a frame -/

/-- The first connection takes 20 bytes of the frame, the second gets the rest. -/
def brokenForever : List Sender.Event :=
  [.send demoLine, .tick, .tau, .connect none, .tau, .tau, .write 20 (some (.other 0)), .tau, .tau,
   .tick, .tau, .connect none, .tau, .tau, .write 57 none, .tau, .tau, .tau, .recvErr (.write 0), .tick, .tau, .tau, .tau, .tau]

def brokenReceived : List Recv.Event :=
  [.tau, .acceptOk, .read 0 { data := demoLineFrame.take 20 }, .tau, .acceptOk, .read 1 { data := demoLineFrame.drop 20 }, .handoff 1]

theorem brokenForever_steps : ∀ i, i < 24 → (match brokenForever[i]? with | some e => Sender.step .lfEnded (after .lfEnded brokenForever i) e | none => some (after .lfEnded brokenForever i)) =
      some (after .lfEnded brokenForever (if i + 1 = 24 then 19 else i + 1)) := by decide +kernel

theorem brokenForever_conns : ∀ i, i < 24 → (after .lfEnded brokenForever i).conns.length = (if i ≤ 3 then 0 else if i ≤ 11 then 1 else 2) ∧
    connBytes 0 (after .lfEnded brokenForever i) = (if i ≤ 6 then [] else demoLineFrame.take 20) ∧
    connBytes 1 (after .lfEnded brokenForever i) = (if i ≤ 14 then [] else demoLineFrame.drop 20) := by decide +kernel

theorem brokenReceived_run : ∃ q, Recv.run .lfEnded 0 Recv.init brokenReceived = some q ∧ q.crashed = false ∧ q.pipeline = [] ∧ q.errs = 0 ∧
    q.conns.length = 2 ∧ (∀ c ∈ q.conns, c.pending = [] ∧ c.errPending = false) := by
  have h : (match Recv.run .lfEnded 0 Recv.init brokenReceived with
      | some q => !q.crashed && q.pipeline.isEmpty && decide (q.errs = 0) && decide (q.conns.length = 2) &&
        q.conns.all fun c => c.pending.isEmpty && !c.errPending
      | none => false) = true := by decide +kernel
  cases hq : Recv.run .lfEnded 0 Recv.init brokenReceived with
  | none => rw [hq] at h; cases h
  | some q =>
    rw [hq] at h
    simp only [Bool.and_eq_true, Bool.not_eq_true', List.isEmpty_iff, decide_eq_true_eq, List.all_eq_true] at h
    exact ⟨q, rfl, h.1.1.1.1, h.1.1.1.2, h.1.1.2, h.1.2, h.2⟩

theorem broken_got : ∀ i, i < 8 → ((Recv.finSt .lfEnded 0 brokenReceived i).got.all fun d => d.2.msg.string.length ≠ 76) = true := by
  decide +kernel

theorem broken_past : ∀ m, past (fun n => brokenReceived[n]?) m = brokenReceived.take m := by
  intro m
  induction m with
  | zero => rfl
  | succ m ih => rw [past_succ, ih, List.take_add_one]

/-- **C100, why partial.** In a fair execution in which errors are read, the network recovers and every byte that was
written arrives, a message is never received: its first 20 bytes were accepted by a connection that then failed, and the
sender writes the rest to the next connection. What `Receive` returns instead is never that message, on any connection. -/
theorem C100_midframe_violated : ∃ ev st er sr, SenderExec .lfEnded ev st ∧ Running .lfEnded ev st ∧ ErrorsRead st ∧ Recovers ev ∧
    (∀ n, (st n).endAsked = false) ∧ (∀ n, (st n).crashed = false) ∧
    sent (past ev 1) = [demoLine] ∧
    ReceiverExec .lfEnded 0 er sr ∧ Consumed .lfEnded 0 er sr ∧ ErrorsDrained sr ∧ (∀ n, (sr n).crashed = false) ∧
    (∀ j, Opened st j → Served .lfEnded 0 j er sr ∧ ∃ n, j < (sr n).conns.length) ∧ Links st id er ∧
    ∀ n, ∀ d ∈ (sr n).got, ¬ IsReceived demoLine d.2 := by
  obtain ⟨q, hq, h1, h2, h3, h4, h5⟩ := brokenReceived_run
  have hfair := fun j => Recv.fin_fair hq h2 (by rw [h3]; decide) h5 j
  have hopen : ∀ j, Opened (lassoSt .lfEnded brokenForever 19 5) j → j = 0 ∨ j = 1 := by
    rintro j ⟨n, hn⟩
    have := (brokenForever_conns _ (lasso_succ 19 5 n (by omega)).1).1
    unfold lassoSt at hn
    rw [this] at hn
    split at hn
    · omega
    · split at hn <;> omega
  refine ⟨lassoEv brokenForever 19 5, lassoSt .lfEnded brokenForever 19 5, fun n => brokenReceived[n]?,
    Recv.finSt .lfEnded 0 brokenReceived, lasso_exec _ _ 19 5 (by omega) brokenForever_steps, ?_, ?_, ⟨19, ?_⟩, ?_, ?_, rfl,
    Recv.fin_exec hq, (hfair 0).1, (hfair 0).2.1, Recv.fin_alive hq h1, ?_, ⟨?_, ?_⟩, ?_⟩
  · intro n
    obtain ⟨m, hm, h⟩ := lasso_again 19 5 0 (by omega) n
    exact ⟨m, hm, Or.inl ⟨.tick, by simp only [lassoEv, h]; rfl, rfl⟩⟩
  · intro n _
    obtain ⟨m, hm, h⟩ := lasso_again 19 5 0 (by omega) n
    refine ⟨m, hm, ?_⟩
    simp only [lassoSt, h]
    decide +kernel
  · intro n hn e he
    have hi : 19 ≤ lasso 19 5 n := by unfold lasso; split <;> omega
    have hi' := (lasso_succ 19 5 n (by omega)).1
    have hall : ∀ i, i < 24 → 19 ≤ i → (brokenForever[i]?).map fails = some false := by decide +kernel
    have := hall _ hi' hi
    unfold lassoEv at he
    rw [he] at this
    exact Option.some.inj this
  · exact lasso_all 19 5 (by omega) (fun i => (after .lfEnded brokenForever i).endAsked = false) (by decide +kernel)
  · exact lasso_all 19 5 (by omega) (fun i => (after .lfEnded brokenForever i).crashed = false) (by decide +kernel)
  · intro j hj
    refine ⟨(hfair j).2.2, 7, ?_⟩
    rw [Recv.fin_end hq (by decide)]
    rcases hopen j hj with rfl | rfl <;> omega
  · intro j hj m
    refine ⟨19, ?_⟩
    have ha : arrived (readsOf j brokenReceived) = connBytes j (lassoSt .lfEnded brokenForever 19 5 19) := by
      rcases hopen j hj with rfl | rfl <;> decide +kernel
    obtain ⟨r, hr⟩ := List.take_prefix m brokenReceived
    rw [← ha, broken_past, ← hr, Recv.readsOf_append]
    simp only [arrived, List.flatMap_append, hr]
    exact List.prefix_append _ _
  · intro j hj n
    refine ⟨7, ?_⟩
    have ha : arrived (readsOf j (past (fun n => brokenReceived[n]?) 7)) = if j = 0 then demoLineFrame.take 20 else demoLineFrame.drop 20 := by
      rcases hopen j hj with rfl | rfl <;> decide +kernel
    show _ <+: arrived (readsOf j _)
    rw [ha]
    have := (brokenForever_conns _ (lasso_succ 19 5 n (by omega)).1).2
    unfold lassoSt
    rcases hopen j hj with rfl | rfl
    · rw [this.1]; split
      · exact List.nil_prefix
      · exact List.prefix_refl _
    · rw [this.2]; split
      · exact List.nil_prefix
      · exact List.prefix_refl _
  · intro n d hd hr
    have hlen : d.2.msg.string.length ≠ 76 := by
      by_cases hn : n < 8
      · have := broken_got n hn
        rw [List.all_eq_true] at this
        simpa using this d hd
      · rw [Recv.fin_end hq (by simp only [brokenReceived, List.length_cons, List.length_nil]; omega)] at hd
        have := broken_got 7 (by omega)
        rw [Recv.fin_end hq (by decide), List.all_eq_true] at this
        simpa using this d hd
    have hb := hr.bytes
    have hm : (match demoLine.marshal with | .ret (.ok b) => decide (b.length = 76) | _ => false) = true := by decide +kernel
    rw [hb] at hm
    exact hlen (by simpa using hm)

end Syslog5424
