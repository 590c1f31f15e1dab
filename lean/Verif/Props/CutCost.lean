import Verif.Spec.CutCost
import Verif.Props.Resync
/-! # Property C117: what a write that fails inside a frame costs -/
namespace Syslog5424
open Spec

/-- A beginning of the frames: whole frames and a part of the next. -/
theorem split_frames {fs : List Bytes} (hne : ∀ f ∈ fs, f ≠ []) : ∀ {b : Bytes}, b <+: fs.flatten →
    ∃ k part, k ≤ fs.length ∧ b = (fs.take k).flatten ++ part ∧ (part = [] ∧ k = fs.length ∨ ∃ rest, rest ≠ [] ∧ fs[k]? = some (part ++ rest)) := by
  induction fs with
  | nil => intro b h; exact ⟨0, [], by simp, by simpa using h, Or.inl ⟨rfl, rfl⟩⟩
  | cons f fs ih =>
    intro b h
    rw [List.flatten_cons] at h
    rcases List.prefix_or_prefix_of_prefix h (List.prefix_append f _) with ⟨r, hr⟩ | ⟨b', rfl⟩
    · by_cases h0 : r = []
      · subst h0
        rw [List.append_nil] at hr
        subst hr
        cases fs with
        | nil => exact ⟨1, [], by simp, by simp, Or.inl ⟨rfl, rfl⟩⟩
        | cons g fs => exact ⟨1, [], by simp, by simp, Or.inr ⟨g, hne g (by simp), by simp⟩⟩
      · exact ⟨0, b, by simp, by simp, Or.inr ⟨r, h0, by simp [hr]⟩⟩
    · obtain ⟨k, part, h1, h2, h3⟩ := ih (fun g hg => hne g (by simp [hg])) ((List.prefix_append_right_inj f).mp h)
      refine ⟨k + 1, part, by simpa using h1, by simp [h2], ?_⟩
      rcases h3 with ⟨h3, h4⟩ | ⟨rest, h3, h4⟩
      · exact Or.inl ⟨h3, by simp [h4]⟩
      · exact Or.inr ⟨rest, h3, by simpa using h4⟩

/-- The number of bytes before frame `a`. -/
def startOf (fs : List Bytes) (a : Nat) : Nat := ((fs.take a).flatten).length

theorem startOf_succ {fs : List Bytes} {a : Nat} (h : a < fs.length) : startOf fs (a + 1) = startOf fs a + (fs[a]).length := by
  unfold startOf
  rw [List.take_add_one, List.flatten_append, List.length_append, List.getElem?_eq_getElem h]
  simp

theorem startOf_mono {fs : List Bytes} {a b : Nat} (h : a ≤ b) : startOf fs a ≤ startOf fs b := by
  obtain ⟨c, rfl⟩ := Nat.exists_eq_add_of_le h
  unfold startOf
  rw [List.take_add, List.flatten_append, List.length_append]
  omega

theorem startOf_lt {fs : List Bytes} (hne : ∀ f ∈ fs, f ≠ []) {a b : Nat} (hab : a < b) (ha : a < fs.length) : startOf fs a < startOf fs b := by
  have h1 := startOf_succ ha
  have h2 := List.length_pos_iff.mpr (hne _ (List.getElem_mem ha))
  have := startOf_mono (fs := fs) (show a + 1 ≤ b by omega)
  omega

/-- The connection on which a frame is that no connection begins in. -/
theorem on_one (S : Nat → Nat) (lo hi : Nat) (hS : S 0 ≤ lo) : ∀ N, hi ≤ S N → lo < hi → (∀ j < N, ¬ (lo < S j ∧ S j < hi)) →
    ∃ j < N, S j ≤ lo ∧ hi ≤ S (j + 1) := by
  intro N
  induction N with
  | zero => intro h h' _; omega
  | succ N ih =>
    intro h h' hc
    rcases Nat.lt_or_ge lo (S N) with h1 | h1
    · have := hc N (by omega)
      obtain ⟨j, h2, h3⟩ := ih (by omega) h' (fun j hj => hc j (by omega))
      exact ⟨j, by omega, h3⟩
    · exact ⟨N, by omega, h1, h⟩

/-- What has been received on a connection stays where it is. -/
theorem each_stays {t : Transport} {lenQueue : Nat} {er : Nat → Option Recv.Event} {sr : Nat → Recv.State} (hxr : ReceiverExec t lenQueue er sr)
    {m m' i x d : Nat} (h : m ≤ m') {ms : List Message} (hlen : ms.length = d)
    (he : Each IsReceived ms (((ofConn i (sr m).got).drop x).take d)) : Each IsReceived ms (((ofConn i (sr m').got).drop x).take d) := by
  obtain ⟨r, hr⟩ := got_exec hxr h
  have hl := each_length he
  rw [hlen, List.length_take, List.length_drop] at hl
  have e : ofConn i (sr m').got = ofConn i (sr m).got ++ ofConn i r := by rw [← hr]; simp [ofConn]
  rcases Nat.eq_zero_or_pos d with h0 | h0
  · subst h0; simpa using he
  · rw [e, List.drop_append_of_le_length (by omega), List.take_append_of_le_length (by rw [List.length_drop]; omega)]
    exact he

/-- What is received from one connection, however it began: the messages whose frames are whole on it, but for at most the first one if it began inside a frame. -/
theorem conn_share {t : Transport} {z : UInt8} (ht : t = .lfEnded ∧ z = 10 ∨ t = .zeroEnded ∧ z = 0)
    (ev : Nat → Option Sender.Event) (st : Nat → Sender.State) (hx : SenderExec t ev st)
    (hmsgs : ∀ n, ∀ m ∈ sent (past ev n), TransmissibleLine z m)
    (hbr : ∀ n, ∀ m ∈ sent (past ev n), ∀ b, m.marshal = .ret (.ok b) → (93 : UInt8) ∉ b) (n : Nat)
    (hwords : ∀ j < (st n).conns.length, ∀ k, startOf (frames t (past ev n)) k < (bytesOn ((st n).conns.take j)).length →
      (bytesOn ((st n).conns.take j)).length < startOf (frames t (past ev n)) (k + 1) →
      startOf (frames t (past ev n)) (k + 3) ≤ (bytesOn ((st n).conns.take (j + 1))).length → SevenWords z (connBytes j (st n)))
    (lenQueue : Nat) (er : Nat → Option Recv.Event) (sr : Nat → Recv.State)
    (hxr : ReceiverExec t lenQueue er sr) (hcons : Consumed t lenQueue er sr) (herr : ErrorsDrained sr) (hc : ∀ n, (sr n).crashed = false)
    (j : Nat) (hj : j < (st n).conns.length) (i : Nat) (hserve : Served t lenQueue i er sr) (hopen : ∃ n, i < (sr n).conns.length)
    (hfaithful : ∀ m, ∃ n, arrived (readsOf i (past er m)) <+: connBytes j (st n))
    (hlive : ∃ m, connBytes j (st n) <+: arrived (readsOf i (past er m))) :
    ∃ m s d x, s + d ≤ (sent (past ev n)).length ∧ Each IsReceived (((sent (past ev n)).drop s).take d) (((ofConn i (sr m).got).drop x).take d) ∧
      (d ≠ 0 → (bytesOn ((st n).conns.take j)).length ≤ startOf (frames t (past ev n)) s ∧
        startOf (frames t (past ev n)) (s + d) ≤ (bytesOn ((st n).conns.take (j + 1))).length) ∧
      ∀ a < (sent (past ev n)).length, (bytesOn ((st n).conns.take j)).length ≤ startOf (frames t (past ev n)) a →
        startOf (frames t (past ev n)) (a + 1) ≤ (bytesOn ((st n).conns.take (j + 1))).length →
        (∀ b, a = b + 1 → ¬ (startOf (frames t (past ev n)) b < (bytesOn ((st n).conns.take j)).length ∧
          (bytesOn ((st n).conns.take j)).length < startOf (frames t (past ev n)) a)) → s ≤ a ∧ a < s + d := by
  have hz : z = 10 ∨ z = 0 := by rcases ht with ⟨_, h⟩ | ⟨_, h⟩ <;> simp [h]
  have hok : ∀ m ∈ sent (past ev n), ∃ b, m.marshal = .ret (.ok b) := fun m hm => ⟨_, (line_of_message hz (hmsgs n m hm)).2.1⟩
  have hfs := frames_sent (t := t) _ hok
  have hne : ∀ f ∈ frames t (past ev n), f ≠ [] := by
    intro f hf
    rw [hfs] at hf
    obtain ⟨m, hm, rfl⟩ := List.mem_map.mp hf
    rw [frameOf_line ht (hmsgs n m hm), endedLine]
    simp
  have hlen : (frames t (past ev n)).length = (sent (past ev n)).length := by rw [hfs, List.length_map]
  have hpre : ∀ j, bytesOn ((st n).conns.take j) <+: (frames t (past ev n)).flatten := by
    intro j
    refine List.IsPrefix.trans ?_ (C34_prefix t _ _ (Sender.history_past hx n))
    show bytesOn ((st n).conns.take j) <+: bytesOn (st n).conns
    conv => rhs; rw [← List.take_append_drop j (st n).conns, bytesOn_append]
    exact List.prefix_append _ _
  have hsplit : (st n).conns = (st n).conns.take j ++ (st n).conns[j] :: (st n).conns.drop (j + 1) := by
    rw [List.getElem_cons_drop, List.take_append_drop]
  have hcb : connBytes j (st n) = ((st n).conns[j]).writes.flatten := by
    unfold connBytes; rw [List.getElem?_eq_getElem hj]; rfl
  have hsucc := bytesOn_take_succ (st n) j
  have hpl : ((st n).conns.take j).length = j := by rw [List.length_take]; omega
  obtain ⟨k, part, hk, hb, hpart⟩ := split_frames hne (hpre j)
  obtain ⟨k', part', hk', hb', hpart'⟩ := split_frames hne (hpre (j + 1))
  have hS : (bytesOn ((st n).conns.take j)).length = startOf (frames t (past ev n)) k + part.length := by rw [hb, List.length_append]; rfl
  have hS' : (bytesOn ((st n).conns.take (j + 1))).length = startOf (frames t (past ev n)) k' + part'.length := by rw [hb', List.length_append]; rfl
  have hle : (bytesOn ((st n).conns.take j)).length ≤ (bytesOn ((st n).conns.take (j + 1))).length := by rw [hsucc, List.length_append]; omega
  -- a frame that ends before the end of the connection is before `k'`
  have hend : ∀ a < (sent (past ev n)).length, startOf (frames t (past ev n)) (a + 1) ≤ (bytesOn ((st n).conns.take (j + 1))).length → a < k' := by
    intro a ha h
    refine Nat.lt_of_not_le fun hka => ?_
    rw [hS'] at h
    rcases hpart' with ⟨rfl, h2⟩ | ⟨rest, h2, h3⟩
    · have := startOf_lt hne (show k' < a + 1 by omega) (by omega)
      simp at h; omega
    · obtain ⟨h4, h5⟩ := List.getElem?_eq_some_iff.mp h3
      have h6 := startOf_succ h4
      rw [h5, List.length_append] at h6
      have h7 := startOf_mono (fs := frames t (past ev n)) (show k' + 1 ≤ a + 1 by omega)
      have := List.length_pos_iff.mpr h2
      omega
  have hkk : k ≤ k' := by
    cases k with
    | zero => omega
    | succ k => exact hend k (by omega) (by omega)
  have hwhole : ∀ d, k + d ≤ k' → ((frames t (past ev n)).take (k + d)).flatten <+: ((frames t (past ev n)).take k').flatten := by
    intro d hd
    obtain ⟨w, rfl⟩ := Nat.exists_eq_add_of_le hd
    rw [List.take_add (i := k + d), List.flatten_append]
    exact List.prefix_append _ _
  have hconn : bytesOn ((st n).conns.take j) ++ connBytes j (st n) = ((frames t (past ev n)).take k').flatten ++ part' := by rw [← hsucc, hb']
  by_cases h0 : part = []
  · subst h0
    rw [List.append_nil] at hb
    rw [List.length_nil, Nat.add_zero] at hS
    obtain ⟨d, rfl⟩ := Nat.exists_eq_add_of_le hkk
    have hwr : (((frames t (past ev n)).drop k).take d).flatten <+: connBytes j (st n) := by
      rw [hb, List.take_add, List.flatten_append, List.append_assoc] at hconn
      exact ⟨part', (List.append_cancel_left hconn).symm⟩
    obtain ⟨m, hm⟩ := delivered_on (carries_lines ht) ev st hx hmsgs j n k d hj (by omega) hb hwr lenQueue er sr hxr hcons herr hc i hserve hopen hfaithful hlive
    refine ⟨m, k, d, 0, by omega, by simpa using hm, fun _ => ⟨by omega, by omega⟩, fun a ha h1 h2 _ => ⟨?_, hend a ha h2⟩⟩
    refine Nat.le_of_not_lt fun h => ?_
    have := startOf_lt hne h (by omega)
    omega
  · rcases hpart with ⟨h1, _⟩ | ⟨rest, hrest, hfr⟩
    · exact absurd h1 h0
    obtain ⟨hkl, hfr'⟩ := List.getElem?_eq_some_iff.mp hfr
    have hF := startOf_succ hkl
    rw [hfr', List.length_append] at hF
    have hp0 := List.length_pos_iff.mpr h0
    have hr0 := List.length_pos_iff.mpr hrest
    have hafter : ∀ a, (bytesOn ((st n).conns.take j)).length ≤ startOf (frames t (past ev n)) a →
        (∀ b, a = b + 1 → ¬ (startOf (frames t (past ev n)) b < (bytesOn ((st n).conns.take j)).length ∧
          (bytesOn ((st n).conns.take j)).length < startOf (frames t (past ev n)) a)) → k + 2 ≤ a := by
      intro a h1 h2
      refine Nat.le_of_not_lt fun h => ?_
      rcases Nat.lt_or_ge k a with h3 | h3
      · obtain rfl : a = k + 1 := by omega
        exact h2 k rfl ⟨by omega, by omega⟩
      · have := startOf_mono (fs := frames t (past ev n)) h3
        omega
    by_cases h3 : k + 3 ≤ k'
    · obtain ⟨e, rfl⟩ := Nat.exists_eq_add_of_le (show k + 1 ≤ k' by omega)
      have hw := hwords j hj k (by omega) (by omega) (Nat.le_trans (startOf_mono h3) (by omega))
      have hwr : rest ++ (((frames t (past ev n)).drop (k + 1)).take e).flatten <+: ((st n).conns[j]).writes.flatten := by
        rw [hb, List.take_add, List.flatten_append, List.take_add_one, hfr, List.flatten_append, hcb] at hconn
        have hx : ∀ (p q : Bytes), (((frames t (past ev n)).take k).flatten ++ (some (part ++ rest)).toList.flatten ++ p) ++ q =
            (((frames t (past ev n)).take k).flatten ++ part) ++ (rest ++ p ++ q) := by intro p q; simp
        rw [hx] at hconn
        exact ⟨part', (List.append_cancel_left hconn).symm⟩
      obtain ⟨m, d, r, j', g1, g2, g3⟩ := C116_words_eventually t z ht ev st hx hmsgs hbr n _ _ _ hsplit k part rest hrest hfr hb e (by omega) hwr
        (by rw [← hcb]; exact hw) lenQueue er sr hxr hcons herr hc i hserve hopen (by rw [hpl]; exact hfaithful) (by rw [← hcb]; exact hlive)
      refine ⟨m, k + 1 + j', e - j', 1, by omega, by rw [g1]; simpa using g3, fun hd => ⟨?_, ?_⟩, fun a ha h1 h2 h4 => ?_⟩
      · have := startOf_mono (fs := frames t (past ev n)) (show k + 1 ≤ k + 1 + j' by omega)
        omega
      · rw [show k + 1 + j' + (e - j') = k + 1 + e by omega]; omega
      · have g4 := hafter a h1 h4
        have g5 := hend a ha h2
        omega
    · refine ⟨0, k, 0, 0, by omega, by simpa using Each.nil, fun h => absurd rfl h, fun a ha h1 h2 h4 => ?_⟩
      have g4 := hafter a h1 h4
      have g5 := hend a ha h2
      omega

/-- Different numbers below `N` are at most `N` many. -/
theorem nodup_bound : ∀ (N : Nat) (l : List Nat), l.Nodup → (∀ a ∈ l, a < N) → l.length ≤ N := by
  intro N
  induction N with
  | zero => intro l _ h; cases l with
    | nil => simp
    | cons a l => exact absurd (h a (by simp)) (Nat.not_lt_zero _)
  | succ N ih =>
    intro l hl h
    have h1 := ih (l.erase N) (hl.erase _) (fun a ha => by
      have h2 := (List.Nodup.mem_erase_iff hl).mp ha
      have := h a h2.2
      have := h2.1
      omega)
    have : l.length ≤ (l.erase N).length + 1 := by
      rw [List.length_erase]; split <;> omega
    omega

/-- At most two messages for each connection but the first. -/
theorem cut_count {fs : List Bytes} {cs : List Sender.Conn} (l : List Nat) (hl : l.Nodup)
    (h : ∀ a ∈ l, a < fs.length ∧ (CutInside fs cs a ∨ ∃ b, a = b + 1 ∧ CutInside fs cs b)) : l.length ≤ 2 * (cs.length - 1) := by
  have hcode : ∀ a : Nat, ∃ c : Nat, a ∈ l → c < 2 * (cs.length - 1) ∧ ∃ j b, c = 2 * (j - 1) + b ∧ 1 ≤ j ∧ b ≤ 1 ∧ b ≤ a ∧
      startOf fs (a - b) < (bytesOn (cs.take j)).length ∧ (bytesOn (cs.take j)).length < startOf fs (a - b + 1) := by
    intro a
    by_cases ha : a ∈ l
    · have pos : ∀ j, startOf fs 0 ≤ (bytesOn (cs.take j)).length := fun j => by simp [startOf]
      obtain ⟨_, ⟨j, hj, h1, h2⟩ | ⟨b, rfl, j, hj, h1, h2⟩⟩ := h a ha
      · have h0 : j ≠ 0 := by rintro rfl; simp [bytesOn] at h1
        exact ⟨2 * (j - 1), fun _ => ⟨by omega, j, 0, by omega, by omega, by omega, by omega, h1, h2⟩⟩
      · have h0 : j ≠ 0 := by rintro rfl; simp [bytesOn] at h1
        exact ⟨2 * (j - 1) + 1, fun _ => ⟨by omega, j, 1, by omega, by omega, by omega, by omega, h1, h2⟩⟩
    · exact ⟨0, fun h => absurd h ha⟩
  obtain ⟨code, hc⟩ := Classical.axiomOfChoice hcode
  have h1 : (l.map code).Nodup := by
    refine List.pairwise_map.mpr (List.Pairwise.imp_of_mem ?_ hl)
    intro a a' ha ha' hne' e
    obtain ⟨_, j, b, e1, g1, g2, g3, g4, g5⟩ := hc a ha
    obtain ⟨_, j', b', e1', g1', g2', g3', g4', g5'⟩ := hc a' ha'
    have hj : j = j' := by omega
    have hb : b = b' := by omega
    subst hj; subst hb
    rcases Nat.lt_trichotomy (a - b) (a' - b) with h | h | h
    · have := startOf_mono (fs := fs) (a := a - b + 1) (b := a' - b) h; omega
    · omega
    · have := startOf_mono (fs := fs) (a := a' - b + 1) (b := a - b) h; omega
  have := nodup_bound _ _ h1 (by
    intro c hcm
    obtain ⟨a, ha, rfl⟩ := List.mem_map.mp hcm
    exact (hc a ha).1)
  rwa [List.length_map] at this
/-- **C117.** Each write that fails inside a frame costs at most two messages (LF and NUL transports, messages without closing brackets): writes may fail anywhere, and connections as often as they
like. When everything that was written to the connections of the sender until the moment `n` arrives, each on a connection of its own, then at some moment `Receive` has
returned, from each connection `j`, the messages number `s j` to `s j + d j` of those that were sent, in order, each once, with all their fields and no error;
these stretches do not overlap, and every message whose frame was written is in one of them, but for those in whose frame a connection began and those
behind such a one. So at most two messages are missing for each connection but the first. The connections that begin inside a frame and carry two whole frames behind it must begin with seven words (`SevenWords`): see `C116_first_exactly` for what happens otherwise. -/
theorem C117_two_per_cut (t : Transport) (z : UInt8) (ht : t = .lfEnded ∧ z = 10 ∨ t = .zeroEnded ∧ z = 0)
    (ev : Nat → Option Sender.Event) (st : Nat → Sender.State) (hx : SenderExec t ev st)
    (hmsgs : ∀ n, ∀ m ∈ sent (past ev n), TransmissibleLine z m)
    (hbr : ∀ n, ∀ m ∈ sent (past ev n), ∀ b, m.marshal = .ret (.ok b) → (93 : UInt8) ∉ b) (n : Nat)
    (hwords : ∀ j < (st n).conns.length, ∀ k, (((frames t (past ev n)).take k).flatten).length < (bytesOn ((st n).conns.take j)).length →
      (bytesOn ((st n).conns.take j)).length < (((frames t (past ev n)).take (k + 1)).flatten).length →
      (((frames t (past ev n)).take (k + 3)).flatten).length ≤ (bytesOn ((st n).conns.take (j + 1))).length → SevenWords z (connBytes j (st n)))
    (lenQueue : Nat) (er : Nat → Option Recv.Event) (sr : Nat → Recv.State)
    (hxr : ReceiverExec t lenQueue er sr) (hcons : Consumed t lenQueue er sr) (herr : ErrorsDrained sr) (hc : ∀ n, (sr n).crashed = false)
    (f : Nat → Nat) (hserve : ∀ j < (st n).conns.length, Served t lenQueue (f j) er sr)
    (hopen : ∀ j < (st n).conns.length, ∃ n, f j < (sr n).conns.length)
    (hfaithful : ∀ j < (st n).conns.length, ∀ m, ∃ n, arrived (readsOf (f j) (past er m)) <+: connBytes j (st n))
    (hlive : ∀ j < (st n).conns.length, ∃ m, connBytes j (st n) <+: arrived (readsOf (f j) (past er m))) :
    ∃ (m : Nat) (s d x : Nat → Nat),
      (∀ j < (st n).conns.length, s j + d j ≤ (sent (past ev n)).length ∧
        Each IsReceived (((sent (past ev n)).drop (s j)).take (d j)) (((ofConn (f j) (sr m).got).drop (x j)).take (d j))) ∧
      (∀ j j', j < j' → j' < (st n).conns.length → d j ≠ 0 → d j' ≠ 0 → s j + d j ≤ s j') ∧
      (∀ a < (sent (past ev n)).length, (((frames t (past ev n)).take (a + 1)).flatten).length ≤ (wire (st n)).length →
        (∃ j < (st n).conns.length, s j ≤ a ∧ a < s j + d j) ∨ CutInside (frames t (past ev n)) (st n).conns a ∨
        ∃ b, a = b + 1 ∧ CutInside (frames t (past ev n)) (st n).conns b) ∧
      ∀ missing : List Nat, missing.Nodup → (∀ a ∈ missing, a < (sent (past ev n)).length ∧
          (((frames t (past ev n)).take (a + 1)).flatten).length ≤ (wire (st n)).length ∧ ¬ ∃ j < (st n).conns.length, s j ≤ a ∧ a < s j + d j) →
        missing.length ≤ 2 * ((st n).conns.length - 1) := by
  have main := fun (j : Nat) (hj : j < (st n).conns.length) => conn_share ht ev st hx hmsgs hbr n hwords lenQueue er sr hxr hcons herr hc j hj (f j) (hserve j hj) (hopen j hj)
    (hfaithful j hj) (hlive j hj)
  have hz : z = 10 ∨ z = 0 := by rcases ht with ⟨_, h⟩ | ⟨_, h⟩ <;> simp [h]
  have hfs := frames_sent (t := t) (past ev n) fun m hm => ⟨_, (line_of_message hz (hmsgs n m hm)).2.1⟩
  have hne : ∀ f ∈ frames t (past ev n), f ≠ [] := by
    intro f hf
    rw [hfs] at hf
    obtain ⟨m, hm, rfl⟩ := List.mem_map.mp hf
    rw [frameOf_line ht (hmsgs n m hm), endedLine]
    simp
  have hlen : (frames t (past ev n)).length = (sent (past ev n)).length := by rw [hfs, List.length_map]
  have hmono : ∀ j j', j ≤ j' → (bytesOn ((st n).conns.take j)).length ≤ (bytesOn ((st n).conns.take j')).length := by
    intro j j' h
    obtain ⟨w, rfl⟩ := Nat.exists_eq_add_of_le h
    rw [List.take_add, bytesOn_append, List.length_append]; omega
  -- one moment for all connections
  obtain ⟨M, s, d, x, hall⟩ : ∃ (M : Nat) (s d x : Nat → Nat), ∀ j < (st n).conns.length, s j + d j ≤ (sent (past ev n)).length ∧
      Each IsReceived (((sent (past ev n)).drop (s j)).take (d j)) (((ofConn (f j) (sr M).got).drop (x j)).take (d j)) ∧
      (d j ≠ 0 → (bytesOn ((st n).conns.take j)).length ≤ startOf (frames t (past ev n)) (s j) ∧
        startOf (frames t (past ev n)) (s j + d j) ≤ (bytesOn ((st n).conns.take (j + 1))).length) ∧
      ∀ a < (sent (past ev n)).length, (bytesOn ((st n).conns.take j)).length ≤ startOf (frames t (past ev n)) a →
        startOf (frames t (past ev n)) (a + 1) ≤ (bytesOn ((st n).conns.take (j + 1))).length →
        (∀ b, a = b + 1 → ¬ (startOf (frames t (past ev n)) b < (bytesOn ((st n).conns.take j)).length ∧
          (bytesOn ((st n).conns.take j)).length < startOf (frames t (past ev n)) a)) → s j ≤ a ∧ a < s j + d j := by
    have step : ∀ N, N ≤ (st n).conns.length → ∃ (M : Nat) (s d x : Nat → Nat), ∀ j < N, s j + d j ≤ (sent (past ev n)).length ∧
      Each IsReceived (((sent (past ev n)).drop (s j)).take (d j)) (((ofConn (f j) (sr M).got).drop (x j)).take (d j)) ∧
      (d j ≠ 0 → (bytesOn ((st n).conns.take j)).length ≤ startOf (frames t (past ev n)) (s j) ∧
        startOf (frames t (past ev n)) (s j + d j) ≤ (bytesOn ((st n).conns.take (j + 1))).length) ∧
      ∀ a < (sent (past ev n)).length, (bytesOn ((st n).conns.take j)).length ≤ startOf (frames t (past ev n)) a →
        startOf (frames t (past ev n)) (a + 1) ≤ (bytesOn ((st n).conns.take (j + 1))).length →
        (∀ b, a = b + 1 → ¬ (startOf (frames t (past ev n)) b < (bytesOn ((st n).conns.take j)).length ∧
          (bytesOn ((st n).conns.take j)).length < startOf (frames t (past ev n)) a)) → s j ≤ a ∧ a < s j + d j := by
      intro N
      induction N with
      | zero => intro _; exact ⟨0, fun _ => 0, fun _ => 0, fun _ => 0, fun j hj => absurd hj (Nat.not_lt_zero _)⟩
      | succ N ih =>
        intro hN
        obtain ⟨M, s, d, x, h⟩ := ih (by omega)
        obtain ⟨m', s', d', x', g1, g2, g3, g4⟩ := main N (by omega)
        refine ⟨max M m', fun j => if j = N then s' else s j, fun j => if j = N then d' else d j, fun j => if j = N then x' else x j, fun j hj => ?_⟩
        by_cases hjN : j = N
        · subst hjN
          simp only [if_true]
          exact ⟨g1, each_stays hxr (Nat.le_max_right _ _) (by rw [List.length_take, List.length_drop]; omega) g2, g3, g4⟩
        · simp only [if_neg hjN]
          obtain ⟨h1, h2, h3⟩ := h j (by omega)
          exact ⟨h1, each_stays hxr (Nat.le_max_left _ _) (by rw [List.length_take, List.length_drop]; omega) h2, h3⟩
    exact step _ (Nat.le_refl _)
  have each : ∀ a < (sent (past ev n)).length, (((frames t (past ev n)).take (a + 1)).flatten).length ≤ (wire (st n)).length →
        (∃ j < (st n).conns.length, s j ≤ a ∧ a < s j + d j) ∨ CutInside (frames t (past ev n)) (st n).conns a ∨
        ∃ b, a = b + 1 ∧ CutInside (frames t (past ev n)) (st n).conns b := by
    intro a ha hw
    by_cases hcut : CutInside (frames t (past ev n)) (st n).conns a
    · exact Or.inr (Or.inl hcut)
    by_cases hb : ∃ b, a = b + 1 ∧ CutInside (frames t (past ev n)) (st n).conns b
    · exact Or.inr (Or.inr hb)
    refine Or.inl ?_
    have hN : startOf (frames t (past ev n)) (a + 1) ≤ (bytesOn ((st n).conns.take (st n).conns.length)).length := by rw [List.take_length]; exact hw
    obtain ⟨j, hj, h1, h2⟩ := on_one (fun j => (bytesOn ((st n).conns.take j)).length) (startOf (frames t (past ev n)) a) (startOf (frames t (past ev n)) (a + 1))
      (by simp [bytesOn]) _ hN (startOf_lt hne (by omega) (by omega)) (fun j hj h => hcut ⟨j, hj, h.1, h.2⟩)
    exact ⟨j, hj, (hall j hj).2.2.2 a ha h1 h2 fun b hab h => hb ⟨b, hab, j, hj, h.1, by rw [← hab]; exact h.2⟩⟩
  refine ⟨M, s, d, x, fun j hj => ⟨(hall j hj).1, (hall j hj).2.1⟩, ?_, each, fun l hl h => cut_count (fs := frames t (past ev n)) l hl fun a ha => ?_⟩
  · intro j j' hlt hj' hd hd'
    have h1 := ((hall j (by omega)).2.2.1 hd).2
    have h2 := ((hall j' hj').2.2.1 hd').1
    have h3 := hmono (j + 1) j' hlt
    refine Nat.le_of_not_lt fun h => ?_
    have := startOf_lt hne h (by have := (hall j (by omega)).1; omega)
    omega
  · obtain ⟨h1, h2, h3⟩ := h a ha
    exact ⟨by omega, (each a h1 h2).resolve_left h3⟩

/-! An example. The connection of a sender fails inside a message; on the next one there are the rest of it and two other messages. -/

/-- The sender. -/
def cutOnce : List Sender.Event := cutForever.take 28 ++
  [.send demoLine, .tick, .tau, .tau, .tau, .write 77 none, .tau, .tau, .tau, .tick, .tau, .tau, .tau, .tau]

/-- Its receiver: the rest is taken for a message, and the other messages are received. -/
def cutOnceReceived : List Recv.Event := cutForeverReceived ++ [.read 1 { data := demoLineFrame }, .handoff 1]

theorem cutOnce_steps : ∀ i, i < 42 → (match cutOnce[i]? with | some e => Sender.step .lfEnded (after .lfEnded cutOnce i) e | none => some (after .lfEnded cutOnce i)) =
      some (after .lfEnded cutOnce (if i + 1 = 42 then 37 else i + 1)) := by decide +kernel

theorem cutOnceReceived_run : ∃ q, Recv.run .lfEnded 0 Recv.init cutOnceReceived = some q ∧ q.crashed = false ∧ q.pipeline = [] ∧ q.errs = 0 ∧
    q.conns.length = 2 ∧ (∀ c ∈ q.conns, c.pending = [] ∧ c.errPending = false) := by
  have h : (match Recv.run .lfEnded 0 Recv.init cutOnceReceived with
      | some q => !q.crashed && q.pipeline.isEmpty && decide (q.errs = 0) && decide (q.conns.length = 2) &&
        (q.conns.all fun c => c.pending.isEmpty && !c.errPending)
      | none => false) = true := by decide +kernel
  cases hq : Recv.run .lfEnded 0 Recv.init cutOnceReceived with
  | none => rw [hq] at h; cases h
  | some q =>
    rw [hq] at h
    simp only [Bool.and_eq_true, Bool.not_eq_true', List.isEmpty_iff, decide_eq_true_eq, List.all_eq_true] at h
    exact ⟨q, rfl, h.1.1.1.1, h.1.1.1.2, h.1.1.2, h.1.2, h.2⟩

theorem cutOnce_past : ∀ m, past (fun n => cutOnceReceived[n]?) m = cutOnceReceived.take m := by
  intro m
  induction m with
  | zero => rfl
  | succ m ih => rw [past_succ, ih, List.take_add_one]

theorem sevenDemo : SevenWords 10 (demoLineFrame.drop 20 ++ demoLineFrame) :=
  ⟨[b!":14:15.003-07:00", b!"host.example", b!"app", b!"123", b!"ID47", b!"-"], b!"An", demoLineFrame.drop 68 ++ demoLineFrame,
    rfl, by decide, by decide +kernel, by decide, Or.inr ⟨by decide, by decide +kernel⟩⟩

/-- The hypotheses of `C117_two_per_cut`: three messages, of which the first is cut, two connections. -/
example : ∃ ev st er sr, SenderExec .lfEnded ev st ∧ (∀ n, ∀ m ∈ sent (past ev n), m = demoLine) ∧ (sent (past ev 37)).length = 3 ∧ (st 37).conns.length = 2 ∧
    CutInside (frames .lfEnded (past ev 37)) (st 37).conns 0 ∧ ((frames .lfEnded (past ev 37)).flatten).length = (wire (st 37)).length ∧
    (∀ j < (st 37).conns.length, ∀ k, (((frames .lfEnded (past ev 37)).take k).flatten).length < (bytesOn ((st 37).conns.take j)).length →
      (bytesOn ((st 37).conns.take j)).length < (((frames .lfEnded (past ev 37)).take (k + 1)).flatten).length →
      (((frames .lfEnded (past ev 37)).take (k + 3)).flatten).length ≤ (bytesOn ((st 37).conns.take (j + 1))).length → SevenWords 10 (connBytes j (st 37))) ∧
    ReceiverExec .lfEnded 0 er sr ∧ Consumed .lfEnded 0 er sr ∧ ErrorsDrained sr ∧ (∀ n, (sr n).crashed = false) ∧
    (∀ j < (st 37).conns.length, Served .lfEnded 0 j er sr) ∧ (∀ j < (st 37).conns.length, ∃ n, j < (sr n).conns.length) ∧
    (∀ j < (st 37).conns.length, ∀ m, ∃ n, arrived (readsOf j (past er m)) <+: connBytes j (st n)) ∧
    (∀ j < (st 37).conns.length, ∃ m, connBytes j (st 37) <+: arrived (readsOf j (past er m))) := by
  obtain ⟨q, hq, h1, h2, h3, h4, h5⟩ := cutOnceReceived_run
  have h2' : (lassoSt .lfEnded cutOnce 37 5 37).conns.length = 2 := by decide +kernel
  have ha : ∀ j < 2, arrived (readsOf j cutOnceReceived) = connBytes j (lassoSt .lfEnded cutOnce 37 5 37) := by decide +kernel
  have hb : connBytes 1 (lassoSt .lfEnded cutOnce 37 5 37) = (demoLineFrame.drop 20 ++ demoLineFrame) ++ demoLineFrame := by decide +kernel
  refine ⟨lassoEv cutOnce 37 5, lassoSt .lfEnded cutOnce 37 5, fun n => cutOnceReceived[n]?, Recv.finSt .lfEnded 0 cutOnceReceived,
    lasso_exec _ _ 37 5 (by omega) cutOnce_steps, ?_, by decide +kernel, h2', ⟨1, by decide +kernel⟩, by decide +kernel, ?_,
    Recv.fin_exec hq, (Recv.fin_fair hq h2 (by rw [h3]; decide) h5 1).1, (Recv.fin_fair hq h2 (by rw [h3]; decide) h5 1).2.1, Recv.fin_alive hq h1,
    fun j _ => (Recv.fin_fair hq h2 (by rw [h3]; decide) h5 j).2.2, fun j hj => ⟨11, ?_⟩, fun j hj m => ⟨37, ?_⟩, fun j hj => ⟨11, ?_⟩⟩
  · intro n m hm
    have := mem_of_sent hm
    simp only [past, List.mem_filterMap, List.mem_range] at this
    obtain ⟨k, _, hk⟩ := this
    have h := List.mem_of_getElem? hk
    simp only [cutOnce, cutForever, List.take_succ_cons, List.take_zero, List.cons_append, List.nil_append, List.mem_cons, List.not_mem_nil, or_false, Sender.Event.send.injEq, reduceCtorEq, false_or, or_self] at h
    exact h
  · intro j hj k h _ _
    rw [h2'] at hj
    match j, hj with
    | 0, _ => exact absurd h (by simp [bytesOn])
    | 1, _ => rw [hb]; exact SevenWords.more sevenDemo _
  · rw [Recv.fin_end hq (by decide), h4, ← h2']; exact hj
  · rw [h2'] at hj
    obtain ⟨r, hr⟩ := List.take_prefix m cutOnceReceived
    rw [← ha j hj, cutOnce_past]
    conv => rhs; rw [← hr, Recv.readsOf_append]
    simp only [arrived, List.flatMap_append]
    exact List.prefix_append _ _
  · rw [h2'] at hj
    rw [cutOnce_past, List.take_of_length_le (by decide), ha j hj]
    exact List.prefix_refl _

/-- What `C117_two_per_cut` says of it: of the three messages two are received. -/
example : (match Recv.run .lfEnded 0 Recv.init cutOnceReceived with
      | some q => decide ((ofConn 1 q.got).map (fun d => d.msg.string ++ [10]) = [demoLineFrame.drop 20, demoLineFrame, demoLineFrame])
      | none => false) = true := by decide +kernel

end Syslog5424
