import Verif.Props.Clock
import Verif.Props.Transport
import Verif.Props.Fields
import Verif.Props.Net
import Verif.Props.Syslog
/-! # Exact conditions for properties that hold in part -/
namespace Syslog5424
open Spec Transport Clock Net

/-- **C15, exact.** The payload and the bytes that follow are returned exactly when at least 20 bytes are present; otherwise
nothing is returned. -/
theorem C15_exact_iff (d suffix spare : Bytes) (atEOF : Bool) (hd : d.length + 20 < 2 ^ 63) :
    (∃ x y, rfc5425.prefixStrip (some ⟨rfc5425.encode d ++ suffix, spare⟩) atEOF = .ret (some x, some y, none) ∧
      x.vis = d ∧ y.vis = suffix) ↔ 20 ≤ (rfc5425.encode d ++ suffix).length := by
  constructor
  · rintro ⟨x, y, h, -, -⟩
    apply Nat.le_of_not_lt
    intro hl
    unfold prefixStrip at h
    have : (Slice.mk (rfc5425.encode d ++ suffix) spare).len < 20 := hl
    by_cases h0 : (Slice.mk (rfc5425.encode d ++ suffix) spare).len = 0
    · simp only [h0, if_true] at h; simp at h
    · simp only [h0, this, if_true, if_false] at h; simp at h
  · exact C15_round_trip_partial d suffix spare atEOF hd

/-- **C65, exact.** The timestamp is the boot time plus the seconds and nanoseconds exactly when their sum fits in a
`time.Duration`. -/
theorem C65_exact_iff (zone : Int → Int) (hz : ∀ x, -172800 ≤ zone x ∧ zone x ≤ 172800) (m : Message) (boot : Instant)
    (hb : -(2 ^ 62) ≤ boot.sec ∧ boot.sec ≤ 2 ^ 62 ∧ 0 ≤ boot.nsec ∧ boot.nsec < 10 ^ 9) (strSec strNsec : Bytes) (sec nsec : Int)
    (h1 : Lenient strSec sec) (h2 : Lenient strNsec nsec) :
    instant (m.setDelta zone boot strSec strNsec).timestamp = boot.sec * 10 ^ 9 + boot.nsec + (sec * 10 ^ 9 + nsec) ↔
      (-(2 ^ 63) ≤ sec * 10 ^ 9 + nsec ∧ sec * 10 ^ 9 + nsec < 2 ^ 63) := by
  have e1 := lenient_unique (parseInt64_lenient strSec) h1
  have e2 := lenient_unique (parseInt64_lenient strNsec) h2
  have hd : deltaBootToTs boot strSec strNsec = boot.add (wrap64 (nsec + wrap64 (sec * 1000000000))) := by
    unfold deltaBootToTs; rw [e1, e2]
  have hw : wrap64 (nsec + wrap64 (sec * 1000000000)) = Int.bmod (sec * 10 ^ 9 + nsec) (2 ^ 64) := by
    unfold wrap64
    rw [Int.add_bmod_bmod]; congr 1; omega
  rw [hw] at hd
  generalize sec * 10 ^ 9 + nsec = d at *
  have hl : -(2 ^ 63) ≤ Int.bmod d (2 ^ 64) ∧ Int.bmod d (2 ^ 64) < 2 ^ 63 := by
    have a := Int.le_bmod (x := d) (m := 2 ^ 64) (by omega)
    have b := Int.bmod_lt (x := d) (m := 2 ^ 64) (by omega)
    omega
  have ht : (m.setDelta zone boot strSec strNsec).timestamp = civil zone (boot.add (Int.bmod d (2 ^ 64))) := by
    unfold Message.setDelta Message.setTime
    rw [hd]
  have hi : instant (m.setDelta zone boot strSec strNsec).timestamp = boot.sec * 10 ^ 9 + boot.nsec + Int.bmod d (2 ^ 64) := by
    rw [ht]
    generalize Int.bmod d (2 ^ 64) = d at *
    have ha : (boot.add d).sec * 10 ^ 9 + (boot.add d).nsec = boot.sec * 10 ^ 9 + boot.nsec + d ∧ 0 ≤ (boot.add d).nsec ∧ (boot.add d).nsec < 10 ^ 9 := by
      unfold Instant.add
      have e := Int.tdiv_eq_ediv (a := d) (b := 1000000000)
      have e' := Int.tmod_eq_emod (a := d) (b := 1000000000)
      have e3 := Int.tmod_add_mul_tdiv d 1000000000
      simp only [show Int.sign 1000000000 = 1 from rfl] at e
      generalize d.tdiv 1000000000 = q at *
      generalize d.tmod 1000000000 = r at *
      simp only
      split
      · simp only; refine ⟨by omega, by omega, ?_⟩; split at e' <;> omega
      · split
        · simp only; refine ⟨by omega, ?_, by omega⟩; split at e' <;> omega
        · simp only; omega
    have hz2 := hz (boot.add d).sec
    obtain ⟨c1, -, c3⟩ := civil_spec zone (boot.add d) ha.2 (by rw [unixToAbsolute]; omega)
    rw [c3]; omega
  rw [hi]
  constructor
  · intro h
    have : Int.bmod d (2 ^ 64) = d := by omega
    omega
  · intro h
    rw [Int.bmod_eq_of_le (by omega) (by omega)]

/-- **C54, exact.** What a stamp that can be read gives: the date itself when the day exists in the year it is given; the only
other case is February 29 in a common year, which gives March 1. -/
theorem C54_exact (nowYear : Int) (nowMonth : Nat) (m : Message) (stamp : Bytes) (month day hour minute second nsec : Nat)
    (h : StampReads stamp month day hour minute second nsec) :
    let year := if nowMonth = 1 ∧ month = 12 then nowYear - 1 else nowYear
    (m.setStamp nowYear nowMonth stamp =
        { m with timestamp := ⟨year, month, day, hour, minute, second, nsec, 0⟩ } ↔ day ≤ monthLength month year) ∧
    (¬ day ≤ monthLength month year → month = 2 ∧ day = 29 ∧ ¬ Leap year ∧
      m.setStamp nowYear nowMonth stamp = { m with timestamp := ⟨year, 3, 1, hour, minute, second, nsec, 0⟩ }) := by
  intro year
  have hp := (parseStamp_iff stamp ⟨month, day, hour, minute, second, nsec⟩).mpr h
  obtain ⟨_, _, _, _, _, _, _, _, -, -, -, -, -, -, h29, -⟩ := h
  have e : m.setStamp nowYear nowMonth stamp = { m with timestamp := date year ⟨month, day, hour, minute, second, nsec⟩ } := by
    unfold Message.setStamp stampToTs Message.setTime
    rw [hp]; rfl
  have hover : ¬ day ≤ monthLength month year → month = 2 ∧ day = 29 ∧ ¬ Leap year := by
    intro hn
    unfold monthLength at hn h29
    by_cases hm : month = 2
    · subst hm
      have hl2000 : Leap 2000 := by decide
      rw [if_pos rfl] at hn h29
      rw [if_pos hl2000] at h29
      by_cases hl : Leap year
      · rw [if_pos hl] at hn; omega
      · rw [if_neg hl] at hn
        exact ⟨rfl, by omega, hl⟩
    · rw [if_neg hm] at hn h29
      exact absurd h29 hn
  refine ⟨⟨?_, ?_⟩, ?_⟩
  · intro h1
    rw [e] at h1
    apply Decidable.byContradiction
    intro hn
    obtain ⟨rfl, rfl, hl⟩ := hover hn
    have ht := congrArg Message.timestamp h1
    have hm := congrArg Time.month ht
    simp only [date, daysIn_monthLength] at hm
    rw [if_pos (by omega)] at hm
    simp at hm
  · intro hd
    rw [e]
    unfold date
    simp only [daysIn_monthLength]
    rw [if_neg (by omega)]
  · intro hn
    obtain ⟨rfl, rfl, hl⟩ := hover hn
    refine ⟨rfl, rfl, hl, ?_⟩
    rw [e]
    unfold date
    simp only [daysIn_monthLength]
    have : monthLength 2 year = 28 := by unfold monthLength; rw [if_pos rfl, if_neg hl]
    rw [this, if_pos (by omega)]

/-- What is left of an answer of the system: the first 65536 bytes of a datagram. -/
def Spec.cutTo64k : Net.Recv → Net.Recv
  | .datagram d => .datagram (d.take 65536)
  | .error => .error

/-- **C47, exact.** Whatever the datagrams, what is read are the first 65536 bytes of each, in order. -/
theorem C47_exact (buff : Bytes) (q : List Net.Recv) (ns : List Nat) :
    readBytes (fakeReads buff q ns).1 ++ (fakeReads buff q ns).2.1 ++ payload ((fakeReads buff q ns).2.2.map cutTo64k) =
      buff ++ payload (q.map cutTo64k) := by
  have key : ∀ (ns : List Nat) (buff : Bytes) (q : List Net.Recv), fakeReads buff (q.map cutTo64k) ns =
      ((fakeReads buff q ns).1, (fakeReads buff q ns).2.1, (fakeReads buff q ns).2.2.map cutTo64k) := by
    intro ns
    induction ns with
    | nil => intro buff q; rfl
    | cons n r ih =>
      intro buff q
      simp only [fakeReads]
      by_cases hb : buff.length = 0
      · simp only [hb, if_true]
        cases q with
        | nil => rfl
        | cons x q =>
          have hx : fakeRead buff n (cutTo64k x) = fakeRead buff n x := by
            cases x with
            | error => rfl
            | datagram d => simp [fakeRead, cutTo64k, hb, List.take_take]
          simp only [List.map_cons, hx, ih]
      · simp only [hb, if_false, ih]
  have h := (C47_in_order_partial buff (q.map cutTo64k) ns (by
    intro d hd
    obtain ⟨x, -, hx⟩ := List.mem_map.mp hd
    cases x with
    | error => cases hx
    | datagram d' =>
      simp only [cutTo64k, Recv.datagram.injEq] at hx
      subst hx
      simp only [List.length_take]; omega)).1
  rw [key] at h
  exact h

/-- **C47, exact.** When everything has been read, it is the concatenation of the datagrams exactly when none of them is longer
than 65536 bytes. -/
theorem C47_exact_iff (q : List Net.Recv) (ns : List Nat) (h1 : (fakeReads [] q ns).2.1 = []) (h2 : (fakeReads [] q ns).2.2 = []) :
    readBytes (fakeReads [] q ns).1 = payload q ↔ ∀ d, Net.Recv.datagram d ∈ q → d.length ≤ 65536 := by
  have h := C47_exact [] q ns
  rw [h1, h2] at h
  simp only [List.append_nil, List.map_nil, payload, List.flatMap_nil, List.nil_append] at h
  rw [h]
  have hlen : ∀ q : List Net.Recv, (payload (q.map cutTo64k)).length ≤ (payload q).length := by
    intro q
    induction q with
    | nil => simp [payload]
    | cons x r ih =>
      simp only [payload, List.map_cons, List.flatMap_cons, List.length_append] at ih ⊢
      cases x with
      | error => simpa [cutTo64k] using ih
      | datagram d => simp only [cutTo64k, List.length_take]; omega
  constructor
  · intro e
    clear h h1 h2
    induction q with
    | nil => simp
    | cons x r ih =>
      have hr := hlen r
      simp only [payload, List.map_cons, List.flatMap_cons] at e ih hr
      cases x with
      | error =>
        simp only [cutTo64k, List.nil_append] at e
        intro d hd
        exact ih e d (by simpa using hd)
      | datagram d =>
        simp only [cutTo64k] at e
        have e' := congrArg List.length e
        simp only [List.length_append, List.length_take] at e'
        have hd : d.length ≤ 65536 := by omega
        rw [List.take_of_length_le hd] at e
        intro d' hd'
        rcases List.mem_cons.mp hd' with h | h
        · cases h; exact hd
        · exact ih (List.append_cancel_left e) d' h
  · intro hq
    clear h h1 h2
    induction q with
    | nil => rfl
    | cons x r ih =>
      have := ih fun d hd => hq d (List.mem_cons_of_mem _ hd)
      simp only [payload, List.map_cons, List.flatMap_cons] at this ⊢
      rw [this]
      cases x with
      | error => rfl
      | datagram d => simp only [cutTo64k]; rw [List.take_of_length_le (hq d (by simp))]

/-- **C06, exact.** After any sequence of calls on a message with valid fields, the fields are valid exactly when the host name
was not last set by `LocalHost`, or the name of the operating system is valid. -/
theorem C06_exact_iff (osHost : Bytes) (m : Message) (hm : GoodHeader m) (l : List Setter) :
    GoodHeader (l.foldl (Setter.apply osHost) m) ↔ (LastGiven (givesHost osHost) l (false, osHost) → ValidField 255 osHost) := by
  constructor
  · intro h hl
    have := ((C06_last_wins osHost m l).2.2.1).1 _ hl
    simp only [Bool.false_eq_true, if_false] at this
    rw [← this]; exact h.1
  · intro h
    -- with another name of the system only the host name differs
    have same : ∀ (l : List Setter) (a b : Message), { a with hostname := [] } = { b with hostname := [] } →
        { (l.foldl (Setter.apply osHost) a) with hostname := [] } = { (l.foldl (Setter.apply b!"-") b) with hostname := [] } := by
      intro l
      induction l with
      | nil => intro a b h; exact h
      | cons s r ih =>
        intro a b h
        apply ih
        cases a; cases b
        simp only [Message.mk.injEq] at h
        obtain ⟨rfl, rfl, -, rfl, rfl, rfl, rfl, rfl⟩ := h
        cases s <;> rfl
    have hg : GoodHeader (l.foldl (Setter.apply b!"-") m) := setters_good hm l fun _ => by decide
    have e := same l m m rfl
    have e2 := congrArg Message.appname e
    have e3 := congrArg Message.procid e
    have e4 := congrArg Message.msgid e
    have e5 := congrArg Message.message e
    simp only at e2 e3 e4 e5
    refine ⟨?_, by rw [e2]; exact hg.2.1, by rw [e3]; exact hg.2.2.1, by rw [e4]; exact hg.2.2.2.1, by rw [e5]; exact hg.2.2.2.2⟩
    clear e e2 e3 e4 e5 hg same
    induction l using List.reverseRecOn with
    | nil => exact hm.1
    | append_singleton l s ih =>
      rw [List.foldl_append, List.foldl_cons, List.foldl_nil]
      have hkeep : givesHost osHost s = none → (LastGiven (givesHost osHost) l (false, osHost) → ValidField 255 osHost) := by
        intro hs hl
        apply h
        obtain ⟨b, x, a, rfl, h1, h2⟩ := hl
        refine ⟨b, x, a ++ [s], by simp, h1, ?_⟩
        intro t ht
        rcases List.mem_append.mp ht with ht | ht
        · exact h2 t ht
        · rw [List.mem_singleton.mp ht]; exact hs
      cases s with
      | host x => exact validator_valid _ (by decide)
      | localHost => exact h ⟨l, .localHost, [], rfl, rfl, by simp⟩
      | _ => exact ih (hkeep rfl)

/-- **C32, exact.** What is sent through a channel has valid header fields exactly when the channel was derived with `AppName`
(which sanitises the name) or the application name built by the `SubSyslog` calls is valid. -/
theorem C32_exact_iff (host : Option Bytes) (pid out : Nat) (p : Int) (app : Bytes) (hpid : pid < 2 ^ 63) (s0 s s' : Syslog)
    (h0 : Syslog.new host pid out p app = some s0) (history : List Syslog.Call) (hs : s0.calls history = .ret s)
    (name : Bytes) (hname : IsSanitised 48 app name)
    (sev : Int) (c : Channel) (hc : s.channel sev = .ret (s', c)) (ds : List Derive) (now : Time) (d pre loc : Bytes) (sd : List SD)
    (x : Nat × Message) (hx : x ∈ ((Derive.run c ds).write now d).2 ∨ x ∈ (Derive.run c ds).log now d sd ∨
      x ∈ (Derive.run c ds).loggerPrint now pre loc d) :
    ValidHeader x.2 ↔ ((∃ n, Derive.appName n ∈ ds) ∨ ValidField 48 (appPath name history)) := by
  obtain rfl : name = validApp app := sanitised_unique hname (validator_sanitised app 48)
  obtain ⟨s1, h1, h2⟩ := calls_inv (new_inv hpid h0) history
  rw [hs] at h1
  simp only [Out.ret.injEq] at h1
  subst h1
  obtain ⟨s2, c2, h3, _, host', pid', hv1, hv2, hc2⟩ := channel_inv h2 sev
  rw [hc] at h3
  simp only [Out.ret.injEq, Prod.mk.injEq] at h3
  obtain ⟨rfl, rfl⟩ := h3
  obtain ⟨a, ha, _, _, e1, e2, e3, e4, _⟩ := sent_attr _ now d pre loc sd x hx
  generalize hP : appPath (validApp app) history = P at *
  have key : ∀ (ds : List Derive) (cc : Channel) (Q : Prop), (∀ a, cc = .msg a ∨ cc = .tru a →
        ValidField 255 a.hostname ∧ (ValidField 48 a.appname ↔ Q) ∧ ValidField 128 a.pid ∧ ValidField 32 a.msgid) →
      ∀ a, Derive.run cc ds = .msg a ∨ Derive.run cc ds = .tru a →
        ValidField 255 a.hostname ∧ (ValidField 48 a.appname ↔ ((∃ n, Derive.appName n ∈ ds) ∨ Q)) ∧ ValidField 128 a.pid ∧ ValidField 32 a.msgid := by
    intro ds
    induction ds with
    | nil => intro cc Q h a ha; simpa using h a ha
    | cons e r ih =>
      intro cc Q base a ha
      cases e with
      | appName n =>
        have := ih (cc.appName n) True (by
          intro b hb
          cases cc with
          | devNull => simp [Channel.appName] at hb
          | msg b => simp [Channel.appName] at hb
          | tru b =>
            simp only [Channel.appName, reduceCtorEq, false_or, Channel.tru.injEq] at hb
            obtain ⟨g1, g2, g3, g4⟩ := base b (Or.inr rfl)
            subst hb
            exact ⟨g1, iff_of_true (validator_valid _ (by decide)) trivial, g3, g4⟩) a ha
        refine ⟨this.1, ?_, this.2.2⟩
        rw [this.2.1]
        simp
      | msgid n =>
        have := ih (cc.msgid n) Q (by
          intro b hb
          cases cc with
          | devNull => simp [Channel.msgid] at hb
          | msg b => simp [Channel.msgid] at hb
          | tru b =>
            simp only [Channel.msgid, reduceCtorEq, or_false, Channel.msg.injEq] at hb
            obtain ⟨g1, g2, g3, g4⟩ := base b (Or.inr rfl)
            subst hb
            exact ⟨g1, g2, g3, validator_valid _ (by decide)⟩) a ha
        refine ⟨this.1, ?_, this.2.2⟩
        rw [this.2.1]
        simp
  obtain ⟨g1, g2, g3, g4⟩ := key ds c (ValidField 48 P) (by
    intro b hb
    rw [hc2] at hb
    by_cases hle : Priority.severity sev ≤ Priority.severity p
    · rw [if_pos hle] at hb
      simp only [reduceCtorEq, false_or, Channel.tru.injEq] at hb
      subst hb
      exact ⟨hv1, Iff.rfl, hv2, by show ValidField 32 b!"-"; decide⟩
    · rw [if_neg hle] at hb; simp at hb) a ha
  rw [← g2]
  constructor
  · intro h
    rw [← e2]; exact h.app
  · intro h
    exact ⟨by rw [e1]; exact g1, by rw [e2]; exact h, by rw [e3]; exact g3, by rw [e4]; exact g4⟩

/-- **C51, exact.** `Connect` panics exactly when the address and the port are well formed and the resolver answers, but with no
address of the wanted family. -/
theorem C51_panics_iff (network : Bytes) (hostPort : Except Err (Bytes × Bytes)) (resolve : Bytes → Except Err (List IP))
    (dialTCP : IP → Int → Option Err) :
    tcpConnect network hostPort resolve dialTCP = .panic ↔
      ∃ host portStr raw, hostPort = .ok (host, portStr) ∧ (portStr = [] ∨ ∃ port, IntText portStr port) ∧ resolve host = .ok raw ∧
        ∀ ip ∈ raw, ¬ Family network ip := by
  constructor
  · intro h
    cases hostPort with
    | error e => simp [tcpConnect] at h
    | ok x =>
      obtain ⟨host, portStr⟩ := x
      cases hp : (if portStr = [] then some 514 else atoi portStr) with
      | none => simp [tcpConnect, hp] at h
      | some port =>
        have hport : (portStr = [] ∧ port = 514) ∨ (portStr ≠ [] ∧ IntText portStr port) := by
          by_cases he : portStr = []
          · rw [if_pos he] at hp; exact Or.inl ⟨he, (Option.some.inj hp).symm⟩
          · rw [if_neg he] at hp; exact Or.inr ⟨he, (atoi_iff _ _).mp hp⟩
        cases hraw : resolve host with
        | error e => simp [tcpConnect, hp, hraw] at h
        | ok raw =>
          refine ⟨host, portStr, raw, rfl, ?_, hraw, ?_⟩
          · rcases hport with ⟨h1, -⟩ | ⟨-, h1⟩
            · exact Or.inl h1
            · exact Or.inr ⟨port, h1⟩
          · intro ip hip hf
            obtain ⟨res, dialed, h1, -⟩ := C51_connect_partial network host portStr port hport resolve raw hraw ⟨ip, hip, hf⟩ dialTCP
            rw [h] at h1; cases h1
  · rintro ⟨host, portStr, raw, rfl, hport, hraw, hno⟩
    obtain ⟨port, hp⟩ : ∃ port, (if portStr = [] then some 514 else atoi portStr) = some port := by
      by_cases he : portStr = []
      · exact ⟨514, by rw [if_pos he]⟩
      · rcases hport with h | ⟨port, h⟩
        · exact absurd h he
        · exact ⟨port, by rw [if_neg he]; exact (atoi_iff _ _).mpr h⟩
    have : raw.filter (fun ip => decide (Family network ip)) = [] := by
      rw [List.filter_eq_nil_iff]; intro x hx; simpa using hno x hx
    simp [tcpConnect, hp, hraw, selectIPs_spec, this, dialLoop]

/-! ## Concrete cases -/

/-- Both sides of each condition occur. -/
example : 20 ≤ (rfc5425.encode b!"<0>1 - - - - - - some text" ++ b!"26 ").length ∧ ¬ 20 ≤ (rfc5425.encode b!"<0>1 - - - - - -" ++ []).length := by
  decide +kernel
example : LastGiven (givesHost b!"") [.host b!"h", .localHost, .msg b!"x"] (false, b!"") ∧ ¬ ValidField 255 b!"" :=
  ⟨⟨[.host b!"h"], .localHost, [.msg b!"x"], rfl, rfl, by simp [givesHost]⟩, by decide⟩
example : GoodHeader ([Setter.localHost, .host b!"a b"].foldl (Setter.apply b!"") Message.empty) :=
  (C06_exact_iff b!"" Message.empty empty_good _).mpr (by
    rintro ⟨b, s, a, h1, h2, h3⟩
    exfalso
    have h4 : Setter.host b!"a b" ∈ b ++ s :: a := by rw [← h1]; simp
    rcases List.mem_append.mp h4 with h4 | h4
    · obtain ⟨u, v, rfl⟩ := List.append_of_mem h4
      have := congrArg List.length h1
      simp at this
      obtain ⟨rfl, rfl, rfl⟩ : u = [] ∧ v = [] ∧ a = [] := ⟨List.length_eq_zero_iff.mp (by omega), List.length_eq_zero_iff.mp (by omega), List.length_eq_zero_iff.mp (by omega)⟩
      simp at h1
    · rcases List.mem_cons.mp h4 with h4 | h4
      · subst h4; simp [givesHost] at h2
      · have := h3 _ h4; simp [givesHost] at this)
/-- `SubSyslog("a b")`, then `Channel`, with and without `AppName("x")`. -/
example : ∃ s0 s1 c m, Syslog.new none 1 0 7 b!"-" = some s0 ∧ s0.calls [.sub b!"a b"] = .ret s1 ∧ s1.channel 0 = .ret (s1, c) ∧
    (0, m) ∈ ((Derive.run c [.appName b!"x"]).write .epoch b!"t").2 ∧ ValidField 48 m.appname ∧ ¬ ValidField 48 (appPath b!"-" [.sub b!"a b"]) := by
  refine ⟨_, _, _, _, rfl, rfl, rfl, by exact List.mem_singleton.mpr rfl, ?_, ?_⟩ <;> decide +kernel
/-- A datagram of 70000 bytes, read by two calls. -/
example : (fakeReads [] [.datagram (List.replicate 70000 1)] [65536]).2.1 = [] ∧ (fakeReads [] [.datagram (List.replicate 70000 1)] [65536]).2.2 = [] := by
  decide +kernel
example : tcpConnect b!"tcp6" (.ok (b!"host", b!"514")) (fun _ => .ok [⟨true, 1⟩]) (fun _ _ => none) = .panic :=
  (C51_panics_iff _ _ _ _).mpr ⟨_, _, _, rfl, Or.inr ⟨514, (atoi_iff _ _).mp (by decide +kernel)⟩, rfl, by decide⟩
/-- `Feb 29` read in 2023 and in 2024. -/
example : (Message.empty.setStamp 2023 3 b!"Feb 29 10:00:00").timestamp = ⟨2023, 3, 1, 10, 0, 0, 0, 0⟩ ∧
    (Message.empty.setStamp 2024 3 b!"Feb 29 10:00:00").timestamp = ⟨2024, 2, 29, 10, 0, 0, 0, 0⟩ := by decide +kernel

end Syslog5424
