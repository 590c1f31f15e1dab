import Verif.Spec.GramFair
import Verif.Props.Gram
import Verif.Props.Delivery
import Verif.Props.Liveness
import Verif.Props.EndToEndMany
import Verif.Props.Reconnect
/-! # C110: messages in datagrams, eventually -/
namespace Syslog5424
open Spec

theorem wire_packets (s : Sender.State) : wire s = (packets s).flatten := by
  unfold wire packets
  have h1 : ∀ l : List Bytes, (l.filter fun w => w ≠ []).flatten = l.flatten := by
    intro l
    induction l with
    | nil => rfl
    | cons a r ih =>
      by_cases ha : a = []
      · subst ha; simpa using ih
      · rw [List.filter_cons_of_pos (by simpa using ha), List.flatten_cons, List.flatten_cons, ih]
  rw [h1]
  induction s.conns with
  | nil => rfl
  | cons c r ih => simp [ih]

theorem flatten_prefix_imp {fs ps : List Bytes} (hf : ∀ f ∈ fs, f ≠ []) {all : List Bytes} (h1 : fs <+: all) (h2 : ps <+: all) (h : fs.flatten <+: ps.flatten) : fs <+: ps := by
  rcases Nat.le_or_le fs.length ps.length with hl | hl
  · exact List.prefix_of_prefix_length_le h1 h2 hl
  · obtain ⟨r, hr⟩ := List.prefix_of_prefix_length_le h2 h1 hl
    have hlen := h.length_le
    rw [← hr, List.flatten_append, List.length_append] at hlen
    have h0 : r.flatten = [] := List.length_eq_zero_iff.mp (by omega)
    have hr0 : r = [] := by
      cases r with
      | nil => rfl
      | cons a r =>
        exfalso
        simp only [List.flatten_cons, List.append_eq_nil_iff] at h0
        exact hf a (by rw [← hr]; simp) h0.1
    rw [← hr, hr0, List.append_nil]
    exact List.prefix_rfl

/-- Everything accepted until `n` has become datagrams at some later moment. -/
theorem packets_eventually (t : Transport) (ev : Nat → Option Sender.Event) (st : Nat → Sender.State) (hx : SenderExec t ev st)
    (hrun : Running t ev st) (hread : ErrorsRead st) (hrec : Recovers ev) (hend : ∀ n, (st n).endAsked = false) (hcs : ∀ n, (st n).crashed = false)
    (hw : ∀ n nb e, ev n = some (.write nb (some e)) → nb = 0) (n : Nat) : ∃ m, frames t (past ev n) <+: packets (st m) := by
  obtain ⟨m, hm, h⟩ := C82_written t ev st hx hrun hread hrec hend hcs n
  refine ⟨m, ?_⟩
  have hclean : ∀ nb x, .write nb (some x) ∈ past ev m → nb = 0 := by
    intro nb x hmem
    simp only [past, List.mem_filterMap, List.mem_range] at hmem
    obtain ⟨k, _, hk⟩ := hmem
    exact hw k nb x hk
  obtain ⟨waiting, hwt⟩ := C37_datagram_partial t _ _ (Sender.history_past hx m) hclean
  have h1 : frames t (past ev n) <+: frames t (past ev m) := by
    obtain ⟨r, hr⟩ := past_prefix ev hm
    rw [← hr, Sender.frames_append]
    exact ⟨_, rfl⟩
  have h2 : packets (st m) <+: frames t (past ev m) := ⟨waiting, hwt⟩
  rw [wire_packets] at h
  exact flatten_prefix_imp (frames_ne_nil t _) h1 h2 h

theorem fromSender_prefix {α : Type} (j : Nat) {l l' : List (Nat × α)} (h : l <+: l') : fromSender j l <+: fromSender j l' := h.filterMap _

/-- What has become datagrams is received: `n j` is the moment that matters for sender `j`. -/
theorem gram_delivered (t : Transport) (count : Nat) (ev : Nat → Nat → Option Sender.Event) (st : Nat → Nat → Sender.State)
    (hx : ∀ j, j < count → SenderExec t (ev j) (st j))
    (hw : ∀ j, j < count → ∀ n nb e, ev j n = some (.write nb (some e)) → nb = 0)
    (hmsgs : ∀ j, j < count → ∀ n, ∀ m ∈ sent (past (ev j) n), FitsDatagram t m)
    (lenQueue : Nat) (er : Nat → Option Recv.Event) (sr : Nat → Recv.State) (hxr : ReceiverExec t lenQueue er sr) (hcons : Consumed t lenQueue er sr)
    (herr : ErrorsDrained sr) (hc : ∀ n, (sr n).crashed = false) (i : Nat) (hserve : Served t lenQueue i er sr) (hi : ∃ n, i < (sr n).conns.length)
    (ds : Nat → List (Nat × Bytes)) (answers : Nat → List Net.Recv) (hlink : GramLink t count st i er ds answers) (n : Nat → Nat)
    (hwr : ∀ j, j < count → ∃ m, frames t (past (ev j) (n j)) <+: packets (st j m)) :
    ∃ m, ∃ ts : List (Nat × Message), Each IsReceived (ts.map (·.2)) ((ofConn i (sr m).got).take ts.length) ∧
      (∀ x ∈ ts, x.1 < count) ∧ ∀ j, j < count → sent (past (ev j) (n j)) <+: fromSender j ts ∧ ∃ n', fromSender j ts <+: sent (past (ev j) n') := by
  have hok : ∀ j, j < count → ∀ n, ∀ m ∈ sent (past (ev j) n), ∃ b, m.marshal = .ret (.ok b) := fun j hj n m hm => by
    obtain ⟨b, _, hb, _⟩ := transmissible_frame (hmsgs j hj n m hm).toIntact
    exact ⟨b, hb⟩
  -- a moment at which all of it has been read
  have hread1 : ∀ j, j < count → ∃ m, frames t (past (ev j) (n j)) <+: fromSender j (ds m) := by
    intro j hj
    obtain ⟨n1, h1⟩ := hwr j hj
    obtain ⟨m, h2⟩ := hlink.live j n1 hj
    exact ⟨m, h1.trans h2⟩
  have hall : ∀ k, k ≤ count → ∃ m, ∀ j, j < k → frames t (past (ev j) (n j)) <+: fromSender j (ds m) := by
    intro k
    induction k with
    | zero => intro _; exact ⟨0, fun j hj => absurd hj (by omega)⟩
    | succ k ih =>
      intro hk
      obtain ⟨m1, h1⟩ := ih (by omega)
      obtain ⟨m2, h2⟩ := hread1 k (by omega)
      refine ⟨max m1 m2, fun j hj => ?_⟩
      rcases Nat.lt_succ_iff_lt_or_eq.mp hj with hj | rfl
      · exact (h1 j hj).trans (fromSender_prefix j (hlink.grows _ _ (Nat.le_max_left _ _)))
      · exact h2.trans (fromSender_prefix j (hlink.grows _ _ (Nat.le_max_right _ _)))
  obtain ⟨M0, hM0⟩ := hall count (Nat.le_refl _)
  obtain ⟨n0, hn0⟩ := hi
  let M := max M0 n0
  have hM : ∀ j, j < count → frames t (past (ev j) (n j)) <+: fromSender j (ds M) := fun j hj =>
    (hM0 j hj).trans (fromSender_prefix j (hlink.grows _ _ (Nat.le_max_left _ _)))
  have hiM : i < (sr M).conns.length := by
    obtain ⟨c', h, _⟩ := Recv.conn_stays hxr hc (List.getElem?_eq_getElem hn0) (Nat.le_max_right M0 n0)
    rcases Nat.lt_or_ge i (sr (max M0 n0)).conns.length with h1 | h1
    · exact h1
    · rw [List.getElem?_eq_none h1] at h; cases h
  -- the messages of the datagrams that were read
  have hg : ∀ j, ∃ ms : List Message, fromSender j (ds M) = ms.map (frameOf t) ∧ (∀ m ∈ ms, FitsDatagram t m) ∧
      (j < count → sent (past (ev j) (n j)) <+: ms ∧ ∃ n', ms <+: sent (past (ev j) n')) := by
    intro j
    by_cases hj : j < count
    · obtain ⟨n1, h1⟩ := hlink.faithful M j hj
      have hclean : ∀ nb x, .write nb (some x) ∈ past (ev j) n1 → nb = 0 := by
        intro nb x hmem
        simp only [past, List.mem_filterMap, List.mem_range] at hmem
        obtain ⟨k, _, hk⟩ := hmem
        exact hw j hj k nb x hk
      obtain ⟨waiting, hwt⟩ := C37_datagram_partial t _ _ (Sender.history_past (hx j hj) n1) hclean
      have h2 : fromSender j (ds M) <+: (sent (past (ev j) n1)).map (frameOf t) := by
        rw [← frames_sent _ (hok j hj n1)]
        exact h1.trans ⟨waiting, hwt⟩
      have h3 : fromSender j (ds M) = ((sent (past (ev j) n1)).take (fromSender j (ds M)).length).map (frameOf t) := by
        rw [List.map_take]; exact List.prefix_iff_eq_take.mp h2
      refine ⟨(sent (past (ev j) n1)).take (fromSender j (ds M)).length, h3, fun m hm => hmsgs j hj n1 m (List.mem_of_mem_take hm), fun _ => ⟨?_, n1, List.take_prefix _ _⟩⟩
      have h4 := (hM j hj).length_le
      rw [frames_sent _ (hok j hj (n j)), List.length_map] at h4
      have h5 := h2.length_le
      rw [List.length_map] at h5
      -- both are beginnings of what the sender was given
      have hp : ∀ a b : Nat, sent (past (ev j) a) <+: sent (past (ev j) b) ∨ sent (past (ev j) b) <+: sent (past (ev j) a) := by
        intro a b
        rcases Nat.le_total a b with hab | hab
        · obtain ⟨r, hr⟩ := past_prefix (ev j) hab
          exact Or.inl (by rw [← hr, sent_append]; exact ⟨_, rfl⟩)
        · obtain ⟨r, hr⟩ := past_prefix (ev j) hab
          exact Or.inr (by rw [← hr, sent_append]; exact ⟨_, rfl⟩)
      rcases hp (n j) n1 with h6 | h6
      · exact List.prefix_of_prefix_length_le h6 (List.take_prefix _ _) (by rw [List.length_take]; omega)
      · have h7 : (sent (past (ev j) n1)).length = (sent (past (ev j) (n j))).length := by have := h6.length_le; omega
        rw [h6.eq_of_length h7, List.take_of_length_le (by omega)]
        exact List.prefix_rfl
    · refine ⟨[], ?_, by simp, fun h => absurd h hj⟩
      cases hd : fromSender j (ds M) with
      | nil => rfl
      | cons a r =>
        exfalso
        have hm : a ∈ fromSender j (ds M) := by rw [hd]; simp
        exact hj (hlink.senders M _ (fromSender_mem.mp hm))
  have hg' : ∃ g : Nat → List Message, ∀ j, fromSender j (ds M) = (g j).map (frameOf t) ∧ (∀ m ∈ g j, FitsDatagram t m) ∧
      (j < count → sent (past (ev j) (n j)) <+: g j ∧ ∃ n', g j <+: sent (past (ev j) n')) :=
    ⟨fun j => (hg j).choose, fun j => (hg j).choose_spec⟩
  obtain ⟨g, hg⟩ := hg'
  obtain ⟨ts, h1, h2, h3⟩ := merge (frameOf t) (ds M) g (fun j => (hg j).1)
  have hfits : ∀ m ∈ ts.map (·.2), FitsDatagram t m := by
    intro m hm
    obtain ⟨x, hx, rfl⟩ := List.mem_map.mp hm
    apply (hg x.1).2.1
    rw [← h3 x.1]
    exact fromSender_mem.mpr hx
  have hfr : Each (IsFrame t) (ts.map (·.2)) (datagrams (answers M)) := by
    have := each_isFrame hfits
    rw [List.map_map] at this
    rw [hlink.answered, ← h2]
    exact this
  obtain ⟨k, tok, buff, hloop⟩ := hlink.loop M
  obtain ⟨s', rs, k1, k2, _⟩ := C74_each_datagram_partial t (ts.map (·.2)) hfits (answers M) hfr k
  rw [hloop] at k1
  simp only [Out.ret.injEq, Prod.mk.injEq] at k1
  obtain ⟨rfl, _, hrest, rfl⟩ := k1
  obtain ⟨m, b, tok', _, g1, g2⟩ := C83_received t lenQueue er sr hxr hcons herr hc i hserve M hiM
  have := run_det g1 (gramLoop_run hloop).1
  simp only [Out.ret.injEq, Prod.mk.injEq] at this
  obtain ⟨_, rfl⟩ := this
  have hk : (answers M).length ≤ k := by
    have := congrArg List.length hrest
    simp only [List.length_nil, List.length_drop] at this
    omega
  rw [List.take_of_length_le hk, hlink.answered, List.length_map] at k2
  have hl := congrArg List.length h1
  simp only [List.length_map] at hl
  rw [← hl, List.take_of_length_le (by simp)] at k2
  have ho := each_length k2
  rw [List.length_map] at ho
  refine ⟨m, ts, ?_, ?_, fun j hj => ?_⟩
  · obtain ⟨r, hr⟩ := g2
    rw [← hr, List.take_append_of_le_length (by omega), List.take_of_length_le (by omega)]
    exact k2
  · intro x hx
    have hmem : x.1 ∈ (ds M).map (·.1) := by rw [← h1]; exact List.mem_map.mpr ⟨x, hx, rfl⟩
    obtain ⟨d, hd, he⟩ := List.mem_map.mp hmem
    rw [← he]; exact hlink.senders M d hd
  · rw [h3 j]; exact (hg j).2.2 hj

/-- **C110** (partial). Any number of senders that keep running (each with its errors read, whose connects and writes may fail until the network has recovered, and whose
`Write` is one datagram or accepts nothing) to one datagram socket that loses nothing, with a receiver that keeps being asked: whatever was given to `Send` until any
moment `n`, by every sender, is returned by `Receive`, eventually, each message exactly once, with all its fields and no error, those of one
sender in the order in which they were sent. (Messages of at most 500 bytes; `End` is not called; any schedule, any queue length.) Missing: longer messages
(`C74_stall_violated`). -/
theorem C110_delivered_partial (t : Transport) (count : Nat) (ev : Nat → Nat → Option Sender.Event) (st : Nat → Nat → Sender.State)
    (hx : ∀ j, j < count → SenderExec t (ev j) (st j)) (hrun : ∀ j, j < count → Running t (ev j) (st j)) (hread : ∀ j, j < count → ErrorsRead (st j))
    (hrec : ∀ j, j < count → Recovers (ev j)) (hend : ∀ j, j < count → ∀ n, (st j n).endAsked = false) (hcs : ∀ j, j < count → ∀ n, (st j n).crashed = false)
    (hw : ∀ j, j < count → ∀ n nb e, ev j n = some (.write nb (some e)) → nb = 0)
    (hmsgs : ∀ j, j < count → ∀ n, ∀ m ∈ sent (past (ev j) n), FitsDatagram t m)
    (lenQueue : Nat) (er : Nat → Option Recv.Event) (sr : Nat → Recv.State) (hxr : ReceiverExec t lenQueue er sr) (hcons : Consumed t lenQueue er sr)
    (herr : ErrorsDrained sr) (hc : ∀ n, (sr n).crashed = false) (i : Nat) (hserve : Served t lenQueue i er sr) (hi : ∃ n, i < (sr n).conns.length)
    (ds : Nat → List (Nat × Bytes)) (answers : Nat → List Net.Recv) (hlink : GramLink t count st i er ds answers) (n : Nat) :
    ∃ m, ∃ ts : List (Nat × Message), Each IsReceived (ts.map (·.2)) ((ofConn i (sr m).got).take ts.length) ∧
      (∀ x ∈ ts, x.1 < count) ∧ ∀ j, j < count → sent (past (ev j) n) <+: fromSender j ts ∧ ∃ n', fromSender j ts <+: sent (past (ev j) n') :=
  gram_delivered t count ev st hx hw hmsgs lenQueue er sr hxr hcons herr hc i hserve hi ds answers hlink (fun _ => n) (fun j hj =>
    packets_eventually t (ev j) (st j) (hx j hj) (hrun j hj) (hread j hj) (hrec j hj) (hend j hj) (hcs j hj) (hw j hj) n)

/-! ## executions that meet the hypotheses

Two senders, whose first connects fail, and the receiver of the example of C74, with an error between the two datagrams. -/

def gramForever (text : Bytes) : List Sender.Event := exForeverOf (gramMsg text) (gramFrame text).length

/-- The text of sender `j`. -/
def gramText (j : Nat) : Bytes := if j = 0 then b!"one" else b!"two"

theorem gramForever_steps : ∀ j, j < 2 → ∀ i, i < 20 → (match (gramForever (gramText j))[i]? with
      | some e => Sender.step .lfEnded (after .lfEnded (gramForever (gramText j)) i) e | none => some (after .lfEnded (gramForever (gramText j)) i)) =
      some (after .lfEnded (gramForever (gramText j)) (if i + 1 = 20 then 15 else i + 1)) := by decide +kernel

theorem gramForever_packets : ∀ j, j < 2 → ∀ i, i < 20 → packets (after .lfEnded (gramForever (gramText j)) i) = if i ≤ 11 then [] else [gramFrame (gramText j)] := by decide +kernel

/-- What was read at each moment. -/
def gramDs (m : Nat) : List (Nat × Bytes) := gramArrived.take (if m < 3 then 0 else if m < 7 then 1 else 2)

def gramAns (m : Nat) : List Net.Recv := gramAnswers.take (if m < 3 then 0 else if m < 5 then 1 else if m < 7 then 2 else 3)

theorem gram_from : ∀ j, j < 2 → fromSender j gramArrived = [gramFrame (gramText j)] ∧ fromSender j (gramDs 7) = [gramFrame (gramText j)] := by decide +kernel

theorem gram_past : ∀ m, past (fun n => gramReceived[n]?) m = gramReceived.take m := by
  intro m
  induction m with
  | zero => rfl
  | succ m ih => rw [past_succ, ih, List.take_add_one]

theorem gram_link : GramLink .lfEnded 2 (fun j => lassoSt .lfEnded (gramForever (gramText j)) 15 5) 0 (fun n => gramReceived[n]?) gramDs gramAns where
  answered := by
    intro m
    unfold gramAns gramDs
    rcases Nat.lt_or_ge m 8 with h | h
    · have : ∀ m, m < 8 → datagrams (gramAnswers.take (if m < 3 then 0 else if m < 5 then 1 else if m < 7 then 2 else 3)) =
        (gramArrived.take (if m < 3 then 0 else if m < 7 then 1 else 2)).map (·.2) := by decide +kernel
      exact this m h
    · rw [if_neg (by omega), if_neg (by omega), if_neg (by omega), if_neg (by omega), if_neg (by omega)]
      decide +kernel
  loop := by
    have l1 : (gramFrame b!"one").length ≤ 500 := by decide +kernel
    have l2 : (gramFrame b!"two").length ≤ 500 := by decide +kernel
    have f2 := gramMsg_fits b!"two" (.inr rfl)
    have f1 := gramMsg_fits b!"one" (.inl rfl)
    have hone : Each (IsFrame .lfEnded) [gramMsg b!"two"] ([gramMsg b!"two"].map (frameOf .lfEnded)) := each_isFrame (by
      intro m hm
      simp only [List.mem_cons, List.not_mem_nil, or_false] at hm
      subst hm; exact f2)
    have htwo : Each (IsFrame .lfEnded) [gramMsg b!"two", gramMsg b!"one"] ([gramMsg b!"two", gramMsg b!"one"].map (frameOf .lfEnded)) := each_isFrame (by
      intro m hm
      simp only [List.mem_cons, List.not_mem_nil, or_false] at hm
      rcases hm with rfl | rfl
      · exact f2
      · exact f1)
    have go : ∀ k, k ≤ 3 → ∃ tok, Datagram.gramLoop .lfEnded 3 Tok.init [] (gramAnswers.take k) = .ret (tok, [], [], (readsOf 0 gramReceived).take k) := by
      intro k hk
      have hms : Each (IsFrame .lfEnded) (if k = 0 then [] else if k ≤ 2 then [gramMsg b!"two"] else [gramMsg b!"two", gramMsg b!"one"]) (datagrams (gramAnswers.take k)) := by
        match k, hk with
        | 0, _ => exact .nil
        | 1, _ => exact hone
        | 2, _ => exact hone
        | 3, _ => exact htwo
      obtain ⟨tok, ds, g, _⟩ := gramLoop_frames .lfEnded 3 (gramAnswers.take k) _ Tok.init atRest_init (by
        intro m hm
        split at hm
        · simp at hm
        · split at hm
          · simp only [List.mem_cons, List.not_mem_nil, or_false] at hm; subst hm; exact f2
          · simp only [List.mem_cons, List.not_mem_nil, or_false] at hm
            rcases hm with rfl | rfl
            · exact f2
            · exact f1) hms
      refine ⟨tok, ?_⟩
      have hr : gramAnswers.map (fun r => Datagram.asRead (Net.fakeRead [] 500 r)) = readsOf 0 gramReceived := by
        simp only [gramAnswers, List.map_cons, List.map_nil, fakeRead_datagram l1 (Nat.le_refl _), fakeRead_datagram l2 (Nat.le_refl _)]
        rfl
      have e1 : (gramAnswers.take k).take 3 = gramAnswers.take k := List.take_of_length_le (by rw [List.length_take]; exact Nat.le_trans (Nat.min_le_left _ _) hk)
      have e2 : (gramAnswers.take k).drop 3 = [] := List.drop_eq_nil_of_le (by rw [List.length_take]; exact Nat.le_trans (Nat.min_le_left _ _) hk)
      rw [e1, e2, List.map_take, hr] at g
      exact g
    intro m
    have hk : (readsOf 0 (past (fun n => gramReceived[n]?) m)) = (readsOf 0 gramReceived).take (if m < 3 then 0 else if m < 5 then 1 else if m < 7 then 2 else 3) := by
      rw [gram_past]
      match m with
      | 0 => rfl
      | 1 => rfl
      | 2 => rfl
      | 3 => rfl
      | 4 => rfl
      | 5 => rfl
      | 6 => rfl
      | 7 => rfl
      | m + 8 =>
        rw [if_neg (by omega), if_neg (by omega), if_neg (by omega), List.take_of_length_le (by simp [gramReceived])]
        rfl
    rw [hk]
    obtain ⟨tok, h⟩ := go (if m < 3 then 0 else if m < 5 then 1 else if m < 7 then 2 else 3) (by split <;> (try split) <;> (try split) <;> omega)
    exact ⟨3, tok, [], h⟩
  senders := by
    intro m d hd
    have := List.mem_of_mem_take hd
    have hall : ∀ d ∈ gramArrived, d.1 < 2 := by decide +kernel
    exact hall d this
  grows := by
    intro m m' h
    unfold gramDs
    generalize hA : gramArrived = A
    have : (if m < 3 then 0 else if m < 7 then 1 else 2) ≤ (if m' < 3 then 0 else if m' < 7 then 1 else 2) := by
      split <;> split <;> (try split) <;> (try split) <;> omega
    rw [← Nat.min_eq_left this, ← List.take_take]
    exact List.take_prefix _ _
  faithful := by
    intro m j hj
    refine ⟨15, ?_⟩
    have h15 := gramForever_packets j hj 15 (by omega)
    have hp := (gram_from j hj).1
    show _ <+: packets (after .lfEnded (gramForever (gramText j)) 15)
    rw [h15, if_neg (by omega), ← hp]
    exact fromSender_prefix j (List.take_prefix _ _)
  live := by
    intro j n hj
    refine ⟨7, ?_⟩
    have hp := (gram_from j hj).2
    rw [hp]
    show packets (after .lfEnded (gramForever (gramText j)) (lasso 15 5 n)) <+: _
    rw [gramForever_packets j hj _ (lasso_succ 15 5 n (by omega)).1]
    split
    · exact List.nil_prefix
    · exact List.prefix_rfl

/-- All the hypotheses of C110 are met, and both messages are received. -/
example : ∃ m, ∃ ts : List (Nat × Message), Each IsReceived (ts.map (·.2)) ((ofConn 0 (Recv.finSt .lfEnded 0 gramReceived m).got).take ts.length) ∧
    (∀ x ∈ ts, x.1 < 2) ∧ [gramMsg b!"one"] <+: fromSender 0 ts ∧ [gramMsg b!"two"] <+: fromSender 1 ts := by
  obtain ⟨q, hq, h1, h2, h3, h4, h5, -⟩ := gramReceived_run
  obtain ⟨f1, f2, f3⟩ := Recv.fin_fair hq h2 (by rw [h3]; decide) h5 0
  have hs := fun j hj => exForeverOf_fair (t := .lfEnded) (m := gramMsg (gramText j)) (size := (gramFrame (gramText j)).length) (gramForever_steps j hj)
    (by
      have : ∀ j, j < 2 → (after .lfEnded (gramForever (gramText j)) 15).errs = [] := by decide +kernel
      exact this j hj) (by
      have : ∀ j, j < 2 → ∀ i, i < 20 → (after .lfEnded (gramForever (gramText j)) i).endAsked = false := by decide +kernel
      exact this j hj) (by
      have : ∀ j, j < 2 → ∀ i, i < 20 → (after .lfEnded (gramForever (gramText j)) i).crashed = false := by decide +kernel
      exact this j hj)
  have hmem : ∀ j n m, m ∈ sent (past (lassoEv (gramForever (gramText j)) 15 5) n) → m = gramMsg (gramText j) := by
    intro j n m hm
    have := mem_of_sent hm
    simp only [past, List.mem_filterMap, List.mem_range] at this
    obtain ⟨k, _, hk⟩ := this
    have h : Sender.Event.send m ∈ gramForever (gramText j) := List.mem_of_getElem? hk
    simpa [gramForever, exForeverOf] using h
  obtain ⟨m, ts, g1, g2, g3⟩ := C110_delivered_partial .lfEnded 2 (fun j => lassoEv (gramForever (gramText j)) 15 5)
    (fun j => lassoSt .lfEnded (gramForever (gramText j)) 15 5) (fun j hj => (hs j hj).1) (fun j hj => (hs j hj).2.1) (fun j hj => (hs j hj).2.2.1)
    (fun j hj => (hs j hj).2.2.2.1) (fun j hj => (hs j hj).2.2.2.2.1) (fun j hj => (hs j hj).2.2.2.2.2.1)
    (fun j hj n nb e h => absurd h ((hs j hj).2.2.2.2.2.2 n nb e))
    (fun j hj n m hm => by
      rw [hmem j n m hm]
      exact gramMsg_fits _ (by unfold gramText; split <;> simp))
    0 (fun n => gramReceived[n]?) (Recv.finSt .lfEnded 0 gramReceived) (Recv.fin_exec hq) f1 f2 (Recv.fin_alive hq h1) 0 f3
    ⟨8, by rw [Recv.fin_end hq (by decide)]; omega⟩ gramDs gramAns gram_link 1
  exact ⟨m, ts, g1, g2, (g3 0 (by omega)).1, (g3 1 (by omega)).1⟩

end Syslog5424
