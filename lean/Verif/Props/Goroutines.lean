import Verif.Spec.LoggingMany
import Verif.Props.Calls
import Verif.Props.LoggingMany
/-! # C98: several goroutines log through one `Syslog` -/
namespace Syslog5424
open Spec Sender

/-- The goroutines of the messages can be given the lines that said them. -/
theorem relabel {α β : Type} {R : α → β → Prop} (x : List (Nat × β)) : ∀ (progs : Nat → List α),
    (∀ g, ∃ n, Each R ((progs g).take n) (ofGoroutine g x)) →
    ∃ a : List (Nat × α), a.map (·.1) = x.map (·.1) ∧ Each R (a.map (·.2)) (x.map (·.2)) ∧ ∀ g, ofGoroutine g a <+: progs g := by
  induction x with
  | nil => intro progs _; exact ⟨[], rfl, .nil, fun g => List.nil_prefix⟩
  | cons y x ih =>
    obtain ⟨g, m⟩ := y
    intro progs H
    obtain ⟨n, hn⟩ := H g
    have e1 : ofGoroutine g ((g, m) :: x) = m :: ofGoroutine g x := by simp [ofGoroutine]
    rw [e1] at hn
    cases hp : progs g with
    | nil => rw [hp] at hn; simp at hn; cases hn
    | cons c cs =>
      cases n with
      | zero => simp at hn; cases hn
      | succ n =>
        rw [hp, List.take_succ_cons] at hn
        cases hn with
        | cons hr hrest =>
          obtain ⟨a, h1, h2, h3⟩ := ih (fun g' => if g' = g then cs else progs g') (by
            intro g'
            by_cases hg : g' = g
            · subst hg; simp only [if_pos]; exact ⟨n, hrest⟩
            · simp only [if_neg hg]
              obtain ⟨k, hk⟩ := H g'
              refine ⟨k, ?_⟩
              have : ofGoroutine g' ((g, m) :: x) = ofGoroutine g' x := by simp [ofGoroutine, Ne.symm hg]
              rwa [this] at hk)
          refine ⟨(g, c) :: a, by simp [h1], .cons hr h2, ?_⟩
          intro g'
          by_cases hg : g' = g
          · subst hg
            have := h3 g'
            simp only [if_pos] at this
            rw [hp]
            have e : ofGoroutine g' ((g', c) :: a) = c :: ofGoroutine g' a := by simp [ofGoroutine]
            rw [e]
            exact (List.prefix_cons_inj c).mpr this
          · have := h3 g'
            simp only [if_neg hg] at this
            have e : ofGoroutine g' ((g, c) :: a) = ofGoroutine g' a := by simp [ofGoroutine, Ne.symm hg]
            rw [e]; exact this

theorem ofGoroutine_length {α β : Type} {g : Nat} {a : List (Nat × α)} {x : List (Nat × β)} (h : a.map (·.1) = x.map (·.1)) :
    (ofGoroutine g a).length = (ofGoroutine g x).length := by
  induction a generalizing x with
  | nil =>
    cases x with
    | nil => rfl
    | cons _ _ => simp at h
  | cons y a ih =>
    cases x with
    | nil => simp at h
    | cons z x =>
      simp only [List.map_cons, List.cons.injEq] at h
      have := ih h.2
      by_cases hg : y.1 = g
      · have hz : z.1 = g := h.1 ▸ hg
        simp only [ofGoroutine, List.length_map] at this ⊢
        simp [hg, hz, this]
      · have hz : ¬ z.1 = g := h.1 ▸ hg
        simp only [ofGoroutine, List.length_map] at this ⊢
        simp [hg, hz, this]

theorem ofGoroutine_append {α : Type} (g : Nat) (a b : List (Nat × α)) : ofGoroutine g (a ++ b) = ofGoroutine g a ++ ofGoroutine g b := by
  simp [ofGoroutine]

/-- After the first call of `Channel`, log lines do not change the `Syslog`. -/
theorem logAll_stable {host : Option Bytes} {pid out : Nat} {p : Int} {app : Bytes} {s0 s : Syslog} {x : Int} {c0 : Channel}
    (h0 : Syslog.new host pid out p app = some s0) (hfirst : s0.channel x = .ret (s, c0)) (cs : List LogCall) :
    ∃ ms, logAll s cs = .ret (s, ms.map fun m => (out, m)) ∧ Each (SaysMessage host pid p app) (passing p cs) ms := by
  have hn : s0.channels = none ∧ s0.minSev = Priority.severity p := by
    unfold Syslog.new at h0
    simp only at h0
    split at h0
    · simp at h0
    · simp only [Option.some.injEq] at h0
      subst h0
      exact ⟨rfl, rfl⟩
  have hm : 0 ≤ s0.minSev ∧ s0.minSev ≤ 7 := by rw [hn.2]; exact sev_range p
  have hf0 : Fresh s0 s0 := ⟨hn.1, .inl rfl⟩
  -- the Syslog after a call of Channel is the one with the table
  obtain ⟨s', e1, e2⟩ := fresh_channel hf0 hm x
  rw [hfirst] at e1
  simp only [Out.ret.injEq, Prod.mk.injEq] at e1
  obtain ⟨rfl, _⟩ := e1
  have hsome : ∃ l, s0.table = some l ∧ s = { s0 with channels := some l } := by
    rcases e2.2 with h | h
    · exfalso
      unfold Syslog.channel at hfirst
      split at hfirst
      · cases hfirst
      · next l hl =>
        split at hfirst
        · split at hfirst
          · simp only [Out.ret.injEq, Prod.mk.injEq] at hfirst
            rw [h] at hfirst
            have := congrArg Syslog.channels hfirst.1
            rw [hn.1] at this
            simp at this
          · cases hfirst
        · cases hfirst
    · exact h
  have fix : ∀ {u : Syslog}, Fresh s0 u → u.channels ≠ none → u = s := by
    intro u hu hne
    rcases hu.2 with rfl | ⟨l, h1, rfl⟩
    · exact absurd hn.1 hne
    · obtain ⟨l', h2, rfl⟩ := hsome
      rw [h1] at h2
      simp only [Option.some.injEq] at h2
      rw [h2]
  have hkeep : ∀ (u : Syslog) (sev : Int) (u' : Syslog) (c : Channel), u.channel sev = .ret (u', c) → u'.channels ≠ none := by
    intro u sev u' c h
    unfold Syslog.channel at h
    split at h
    · cases h
    · split at h
      · split at h
        · simp only [Out.ret.injEq, Prod.mk.injEq] at h
          rw [← h.1]; simp
        · cases h
      · cases h
  have one : ∀ c : LogCall, ∃ r, c.run s = .ret (s, r) := by
    intro c
    obtain ⟨s', g1, g2⟩ := fresh_channel e2 hm c.sev
    have := fix g2 (hkeep _ _ _ _ g1)
    subst this
    unfold LogCall.run
    rw [g1]
    exact ⟨_, rfl⟩
  induction cs with
  | nil => exact ⟨[], rfl, .nil⟩
  | cons c cs ih =>
    obtain ⟨ms, h3, h4⟩ := ih
    obtain ⟨s1, h1, h2⟩ := logCall_run h0 e2 c
    obtain ⟨r, hr⟩ := one c
    split at h2
    · next hle =>
      obtain ⟨m, h5, h6⟩ := h2
      rw [hr] at h5
      simp only [Out.ret.injEq, Prod.mk.injEq] at h5
      obtain ⟨rfl, rfl⟩ := h5
      refine ⟨m :: ms, ?_, ?_⟩
      · unfold logAll; rw [hr]; simp only [Out.ret_bind]; rw [h3]; rfl
      · rw [passing, List.filter_cons_of_pos (by simpa using hle)]; exact .cons h6 h4
    · next hle =>
      rw [hr] at h2
      simp only [Out.ret.injEq, Prod.mk.injEq] at h2
      obtain ⟨rfl, rfl⟩ := h2
      refine ⟨ms, ?_, ?_⟩
      · unfold logAll; rw [hr]; simp only [Out.ret_bind]; rw [h3]; rfl
      · rw [passing, List.filter_cons_of_neg (by simpa using hle)]; exact h4

theorem messagesOf_map (ops : List CallOp) (h : ∀ m ∈ messagesOf ops, ∃ b, m.marshal = .ret (.ok b)) : accepted ops = messagesOf ops := by
  induction ops with
  | nil => rfl
  | cons o ops ih =>
    cases o with
    | endCall => exact ih h
    | send m =>
      obtain ⟨b, hb⟩ := h m (by simp [messagesOf])
      have e1 : accepted (.send m :: ops) = m :: accepted ops := by simp [accepted, opEvent, acceptedSend, hb]
      have e2 : messagesOf (.send m :: ops) = m :: messagesOf ops := by simp [messagesOf]
      rw [e1, e2, ih (fun x hx => h x (by rw [e2]; simp [hx]))]

theorem sent_sendsOf (l : List (Option Nat × Event)) (hn : ∀ m, Event.send m ∉ rest l)
    (h : ∀ m ∈ sent (l.map (·.2)), ∃ b, m.marshal = .ret (.ok b)) : sent (l.map (·.2)) = (sendsOf l).map (·.2) := by
  induction l with
  | nil => rfl
  | cons y l ih =>
    obtain ⟨g, e⟩ := y
    have hr : ∀ m, Event.send m ∉ rest l := by
      intro m hm
      apply hn m
      simp only [rest, List.mem_map, List.mem_filter] at hm ⊢
      obtain ⟨y, ⟨hy, hy'⟩, he⟩ := hm
      exact ⟨y, ⟨List.mem_cons_of_mem _ hy, hy'⟩, he⟩
    cases e with
    | send m =>
      cases g with
      | none => exact absurd (by simp [rest]) (hn m)
      | some g =>
        obtain ⟨b, hb⟩ := h m (by simp [sent])
        have e1 : sendsOf ((some g, Event.send m) :: l) = (g, m) :: sendsOf l := by simp [sendsOf, acceptedSend, hb]
        rw [e1]
        simp only [List.map_cons, sent]
        rw [ih hr (fun x hx => h x (by simp [sent, hx]))]
    | _ => cases g <;> exact ih hr h

/-- A message sent in the explanation was given to `Send` by a goroutine. -/
theorem sent_given {t : Transport} {h : List FEvent} {f : FState} {l : List (Option Nat × Event)} (hh : FHistory t h f)
    (he : Explains t h f l) {m : Message} (hm : m ∈ sent (l.map (·.2))) : ∃ g, m ∈ givenBy g h := by
  have hmem : ∀ (es : List Event), m ∈ sent es → Event.send m ∈ es := by
    intro es
    induction es with
    | nil => intro h; cases h
    | cons e es ih =>
      cases e with
      | send m' =>
        intro h
        rcases List.mem_cons.mp h with rfl | h
        · simp
        · exact List.mem_cons_of_mem _ (ih h)
      | _ => intro h; exact List.mem_cons_of_mem _ (ih h)
  obtain ⟨⟨o, e⟩, h1, h2⟩ := List.mem_map.mp (hmem _ hm)
  simp only at h2
  subst h2
  cases o with
  | none =>
    have hn := no_other_send hh m
    rw [← he.others] at hn
    exact absurd (by simp only [rest, List.mem_map, List.mem_filter]; exact ⟨_, ⟨h1, by simp⟩, rfl⟩) hn
  | some g =>
    refine ⟨g, ?_⟩
    have hin : Event.send m ∈ own g l := by
      simp only [own, List.mem_map, List.mem_filter]
      exact ⟨_, ⟨h1, by simp⟩, rfl⟩
    have := (he.order g).subset hin
    obtain ⟨o, ho, ho'⟩ := List.mem_map.mp this
    cases o with
    | endCall => cases ho'
    | send m' =>
      simp only [opEvent, Event.send.injEq] at ho'
      subst ho'
      simp only [givenBy, messagesOf, List.mem_filterMap]
      exact ⟨_, ho, rfl⟩

theorem runs_says {host : Option Bytes} {pid out : Nat} {p : Int} {app : Bytes} {s0 s : Syslog} {x : Int} {c0 : Channel}
    (h0 : Syslog.new host pid out p app = some s0) (hfirst : s0.channel x = .ret (s, c0)) {cs : List LogCall} {ms : List Message}
    (hr : RunsLines s out cs ms) : Each (SaysMessage host pid p app) ((passing p cs).take ms.length) ms := by
  obtain ⟨all, h1, h2⟩ := hr
  obtain ⟨ms', g1, g2⟩ := logAll_stable h0 hfirst cs
  rw [h1] at g1
  simp only [Out.ret.injEq, Prod.mk.injEq, true_and] at g1
  have hms : all = ms' := by
    have := congrArg (List.map Prod.snd) g1
    simpa [List.map_map, Function.comp_def] using this
  subst hms
  obtain ⟨tl, rfl⟩ := h2
  exact each_prefix g2

/-- From an explanation of the history to the lines. -/
theorem interleaved {t : Transport} {host : Option Bytes} {pid out : Nat} {p : Int} {app : Bytes} {s0 s : Syslog} {x : Int} {c0 : Channel}
    (h0 : Syslog.new host pid out p app = some s0) (hfirst : s0.channel x = .ret (s, c0)) {prog : Nat → List LogCall}
    {h h' : List FEvent} {f f' : FState} {l l' : List (Option Nat × Event)} (hrun : ∀ g, RunsLines s out (prog g) (givenBy g (h ++ h')))
    (hok : ∀ g, ∀ m ∈ givenBy g (h ++ h'), ∃ b, m.marshal = .ret (.ok b))
    (hh : FHistory t (h ++ h') f') (he : Explains t h f l) (he' : Explains t (h ++ h') f' (l ++ l')) :
    ∃ a b, Interleaving p prog h a ∧ Interleaving p prog (h ++ h') (a ++ b) ∧ a.length = (sendsOf l).length ∧
      Each (SaysMessage host pid p app) ((a ++ b).map (·.2)) (sent ((l ++ l').map (·.2))) := by
  have hn : ∀ m, Event.send m ∉ rest (l ++ l') := by rw [he'.others]; exact no_other_send hh
  have hs : sent ((l ++ l').map (·.2)) = (sendsOf (l ++ l')).map (·.2) :=
    sent_sendsOf _ hn (fun m hm => by obtain ⟨g, hg⟩ := sent_given hh he' hm; exact hok g m hg)
  have hacc' := he'.accepted
  have hacc := he.accepted
  have hgiven : ∀ g, accepted (called g (h ++ h')) = givenBy g (h ++ h') := fun g => messagesOf_map _ (hok g)
  have hsub : ∀ g, ∀ m ∈ messagesOf (called g h), ∃ b, m.marshal = .ret (.ok b) := by
    intro g m hm
    refine hok g m ?_
    unfold givenBy
    rw [called_append]
    simp only [messagesOf, List.filterMap_append, List.mem_append] at hm ⊢
    exact .inl hm
  have htake : ∀ (ops : List CallOp) (n : Nat), (∀ m ∈ messagesOf ops, ∃ b, m.marshal = .ret (.ok b)) →
      accepted (ops.take n) = messagesOf (ops.take n) := by
    intro ops n hops
    refine messagesOf_map _ (fun m hm => hops m ?_)
    simp only [messagesOf, List.mem_filterMap] at hm ⊢
    obtain ⟨o, ho, e⟩ := hm
    exact ⟨o, List.mem_of_mem_take ho, e⟩
  obtain ⟨ab, k1, k2, k3⟩ := relabel (R := SaysMessage host pid p app) (sendsOf (l ++ l')) (fun g => passing p (prog g)) (by
    intro g
    have hp := (hacc' g).2
    rw [hgiven g] at hp
    obtain ⟨tl, htl⟩ := hp
    have := runs_says h0 hfirst (hrun g)
    rw [← htl] at this
    have := each_prefix this
    rw [List.take_take] at this
    exact ⟨_, this⟩)
  have happ : sendsOf (l ++ l') = sendsOf l ++ sendsOf l' := by simp [sendsOf, List.filterMap_append]
  have hlen : ab.length = (sendsOf l).length + (sendsOf l').length := by
    have := congrArg List.length k1
    simp only [List.length_map, happ, List.length_append] at this
    exact this
  have ka : (ab.take (sendsOf l).length).map (·.1) = (sendsOf l).map (·.1) := by
    rw [List.map_take, k1, happ, List.map_append]
    have : (sendsOf l).length = ((sendsOf l).map (·.1)).length := by simp
    rw [this, List.take_left]
  refine ⟨ab.take (sendsOf l).length, ab.drop (sendsOf l).length, ?_, ?_, ?_, ?_⟩
  · intro g
    have hl := ofGoroutine_length (g := g) ka
    have hpre : ofGoroutine g (ab.take (sendsOf l).length) <+: ofGoroutine g ab := by
      conv => rhs; rw [← List.take_append_drop (sendsOf l).length ab, ofGoroutine_append]
      exact List.prefix_append _ _
    refine ⟨hpre.trans (k3 g), ?_, ?_⟩
    · rw [hl]
      have := (hacc g).1.length_le
      rw [htake _ _ (hsub g)] at this
      exact this
    · rw [hl]
      have := (hacc g).2.length_le
      rw [messagesOf_map _ (hsub g)] at this
      exact this
  · rw [List.take_append_drop]
    intro g
    have hl := ofGoroutine_length (g := g) k1
    refine ⟨k3 g, ?_, ?_⟩
    · rw [hl]
      have := (hacc' g).1.length_le
      rw [htake _ _ (hok g)] at this
      exact this
    · rw [hl]
      have := (hacc' g).2.length_le
      rw [hgiven g] at this
      exact this
  · rw [List.length_take]; omega
  · rw [List.take_append_drop, hs]
    exact k2

/-- **C98.** Several goroutines run log lines on one `Syslog` (on which `Channel` was called before they start), in any
interleaving of the steps of their calls with each other and with the sender. At every moment: what `Receive` has returned
from the connection of the sender is what the lines say, one message for each line, in an order in which the lines of every
goroutine are in the order of its program, and in which a line that has returned (in `h`) comes before every line that
begins later (in `h'`). -/
theorem C98_received_partial (host : Option Bytes) (pid out : Nat) (p : Int) (app : Bytes) (hpid : pid < 2 ^ 63) (s0 s : Syslog) (x : Int)
    (c0 : Channel) (h0 : Syslog.new host pid out p app = some s0) (hfirst : s0.channel x = .ret (s, c0))
    (prog : Nat → List LogCall) (hl : ∀ g, ∀ c ∈ prog g, Loggable c) (h h' : List FEvent)
    (hrun : ∀ g, RunsLines s out (prog g) (givenBy g (h ++ h')))
    (hsize : ∀ g, ∀ m ∈ givenBy g (h ++ h'), ∀ b, m.marshal = .ret (.ok b) → b.length < 2 ^ 62)
    (f f' : FState) (h1 : FHistory .rfc5425 h f) (h2 : frun .rfc5425 f h' = some f')
    (c : Sender.Conn) (r : List Sender.Conn) (hc : f'.s.conns = c :: r)
    (lenQueue : Nat) (er : List Recv.Event) (q : Recv.State) (hq : Recv.run .rfc5425 lenQueue Recv.init er = some q) (hcr : q.crashed = false)
    (i : Nat) (k : Recv.Conn) (hi : q.conns[i]? = some k) (hwire : arrived (readsOf i er) <+: c.writes.flatten) :
    ∃ a b, Interleaving p prog h a ∧ Interleaving p prog (h ++ h') (a ++ b) ∧
      Each (Says host pid p app) (((a ++ b).map (·.2)).take (ofConn i q.got).length) (ofConn i q.got) := by
  obtain ⟨l, l', e1, e2⟩ := C92_linearizable _ h h' f f' h1 h2
  have hh : FHistory .rfc5425 (h ++ h') f' := by
    unfold FHistory at h1 ⊢
    rw [frun_append, h1]; exact h2
  have htr : ∀ g, ∀ m ∈ givenBy g (h ++ h'), Transmissible m := by
    intro g m hm
    obtain ⟨cl, g1, g2⟩ := each_mem (runs_says h0 hfirst (hrun g)) m hm
    exact ⟨says_intact hpid g2 (hl g cl (List.mem_filter.mp (List.mem_of_mem_take g1)).1), hsize g m hm⟩
  obtain ⟨a, b, k1, k2, _, k3⟩ := interleaved h0 hfirst hrun
    (fun g m hm => by obtain ⟨b, _, hb, _⟩ := transmissible_frame (htr g m hm).toIntact; exact ⟨b, hb⟩) hh e1 e2
  refine ⟨a, b, k1, k2, ?_⟩
  have main := C53_in_order_partial _ f'.s e2.state
    (fun m hm => by obtain ⟨g, hg⟩ := sent_given hh e2 hm; exact htr g m hg) c r hc lenQueue er q hq hcr i k hi hwire
  exact each_trans (each_take k3 _) main (fun _ _ _ _ u v => says_received u v)

/-- **C98**, LF and NUL transports. -/
theorem C98_lines_received_partial (t : Transport) (z : UInt8) (ht : t = .lfEnded ∧ z = 10 ∨ t = .zeroEnded ∧ z = 0)
    (host : Option Bytes) (pid out : Nat) (p : Int) (app : Bytes) (hpid : pid < 2 ^ 63) (s0 s : Syslog) (x : Int)
    (c0 : Channel) (h0 : Syslog.new host pid out p app = some s0) (hfirst : s0.channel x = .ret (s, c0))
    (prog : Nat → List LogCall) (hl : ∀ g, ∀ c ∈ prog g, LoggableLine z c) (h h' : List FEvent)
    (hrun : ∀ g, RunsLines s out (prog g) (givenBy g (h ++ h')))
    (f f' : FState) (h1 : FHistory t h f) (h2 : frun t f h' = some f')
    (c : Sender.Conn) (r : List Sender.Conn) (hc : f'.s.conns = c :: r)
    (lenQueue : Nat) (er : List Recv.Event) (q : Recv.State) (hq : Recv.run t lenQueue Recv.init er = some q) (hcr : q.crashed = false)
    (i : Nat) (k : Recv.Conn) (hi : q.conns[i]? = some k) (hwire : arrived (readsOf i er) <+: c.writes.flatten) :
    ∃ a b, Interleaving p prog h a ∧ Interleaving p prog (h ++ h') (a ++ b) ∧
      Each (Says host pid p app) (((a ++ b).map (·.2)).take (ofConn i q.got).length) (ofConn i q.got) := by
  have hz : z = 10 ∨ z = 0 := by rcases ht with ⟨_, h⟩ | ⟨_, h⟩ <;> simp [h]
  obtain ⟨l, l', e1, e2⟩ := C92_linearizable _ h h' f f' h1 h2
  have hh : FHistory t (h ++ h') f' := by
    unfold FHistory at h1 ⊢
    rw [frun_append, h1]; exact h2
  have htr : ∀ g, ∀ m ∈ givenBy g (h ++ h'), TransmissibleLine z m := by
    intro g m hm
    obtain ⟨cl, g1, g2⟩ := each_mem (runs_says h0 hfirst (hrun g)) m hm
    exact says_line hpid g2 (hl g cl (List.mem_filter.mp (List.mem_of_mem_take g1)).1)
  obtain ⟨a, b, k1, k2, _, k3⟩ := interleaved h0 hfirst hrun
    (fun g m hm => by obtain ⟨_, hb, _⟩ := line_of_message hz (htr g m hm); exact ⟨_, hb⟩) hh e1 e2
  refine ⟨a, b, k1, k2, ?_⟩
  have main := C72_in_order_partial t z ht _ f'.s e2.state
    (fun m hm => by obtain ⟨g, hg⟩ := sent_given hh e2 hm; exact htr g m hg) c r hc lenQueue er q hq hcr i k hi hwire
  exact each_trans (each_take k3 _) main (fun _ _ _ _ u v => says_received u v)

/-- When every line has returned before `End` is called and `End` has returned: all the lines, all written. -/
theorem all_written {t : Transport} {host : Option Bytes} {pid out : Nat} {p : Int} {app : Bytes} {s0 s : Syslog} {x : Int} {c0 : Channel}
    (h0 : Syslog.new host pid out p app = some s0) (hfirst : s0.channel x = .ret (s, c0)) {prog : Nat → List LogCall}
    {h h' : List FEvent} {g0 : Nat} {f f' : FState}
    (hrun : ∀ g, RunsLines s out (prog g) (givenBy g (h ++ .call g0 .endCall :: h' ++ [.ret g0])))
    (hok : ∀ g, ∀ m ∈ givenBy g (h ++ .call g0 .endCall :: h' ++ [.ret g0]), ∃ b, m.marshal = .ret (.ok b))
    (hdone : ∀ g, (returnedBy g h).length = (passing p (prog g)).length)
    (h1 : FHistory t h f) (h2 : FHistory t (h ++ .call g0 .endCall :: h' ++ [.ret g0]) f') (hone : called g0 h' = []) :
    ∃ a l, (∀ g, ofGoroutine g a = passing p (prog g)) ∧ Explains t (h ++ .call g0 .endCall :: h' ++ [.ret g0]) f' l ∧
      Each (SaysMessage host pid p app) (a.map (·.2)) (sent (l.map (·.2))) ∧ (frames t (l.map (·.2))).flatten <+: wire f'.s := by
  obtain ⟨l, l', e1, e2, e3⟩ := end_explained t h h' g0 f f' h1 h2 hone
  have has : h ++ .call g0 .endCall :: h' ++ [.ret g0] = h ++ (.call g0 .endCall :: h' ++ [.ret g0]) := by simp
  rw [has] at hrun hok h2 e2 ⊢
  obtain ⟨a, b, k1, k2, k3, k4⟩ := interleaved h0 hfirst hrun hok h2 e1 e2
  have ha : ∀ g, ofGoroutine g a = passing p (prog g) := by
    intro g
    obtain ⟨u, v, _⟩ := k1 g
    exact u.eq_of_length (Nat.le_antisymm u.length_le (by rw [← hdone g]; exact v))
  have hb : b = [] := by
    cases b with
    | nil => rfl
    | cons y b =>
      exfalso
      have := (k2 y.1).1.length_le
      rw [ofGoroutine_append, List.length_append, ha y.1] at this
      have e : ofGoroutine y.1 (y :: b) = y.2 :: ofGoroutine y.1 b := by simp [ofGoroutine]
      rw [e] at this
      simp only [List.length_cons] at this
      omega
  subst hb
  rw [List.append_nil] at k4
  refine ⟨a, l ++ l', ha, e2, k4, ?_⟩
  have hn : ∀ m, Event.send m ∉ rest (l ++ l') := by rw [e2.others]; exact no_other_send h2
  have hs : sent ((l ++ l').map (·.2)) = (sendsOf (l ++ l')).map (·.2) :=
    sent_sendsOf _ hn (fun m hm => by obtain ⟨g, hg⟩ := sent_given h2 e2 hm; exact hok g m hg)
  have hl := each_length k4
  have happ : sendsOf (l ++ l') = sendsOf l ++ sendsOf l' := by simp [sendsOf, List.filterMap_append]
  rw [hs, happ] at hl
  simp only [List.length_map, List.length_append, k3] at hl
  have hnil : sendsOf l' = [] := List.length_eq_zero_iff.mp (by omega)
  rw [frames_sendsOf t _ hn, happ, hnil, List.append_nil]
  exact e3

/-- **C98.** When the lines of all goroutines have returned, then `End` was called and has returned, on a sender that needed
one connection only, and everything that was written has arrived and been received: `Receive` has returned one message for
each line of each goroutine (that passes the threshold), no other, those of every goroutine in the order of its program. -/
theorem C98_complete_partial (host : Option Bytes) (pid out : Nat) (p : Int) (app : Bytes) (hpid : pid < 2 ^ 63) (s0 s : Syslog) (x : Int)
    (c0 : Channel) (h0 : Syslog.new host pid out p app = some s0) (hfirst : s0.channel x = .ret (s, c0))
    (prog : Nat → List LogCall) (hl : ∀ g, ∀ c ∈ prog g, Loggable c) (h h' : List FEvent) (g0 : Nat)
    (hrun : ∀ g, RunsLines s out (prog g) (givenBy g (h ++ .call g0 .endCall :: h' ++ [.ret g0])))
    (hdone : ∀ g, (returnedBy g h).length = (passing p (prog g)).length)
    (hsize : ∀ g, ∀ m ∈ givenBy g (h ++ .call g0 .endCall :: h' ++ [.ret g0]), ∀ b, m.marshal = .ret (.ok b) → b.length < 2 ^ 62)
    (f f' : FState) (h1 : FHistory .rfc5425 h f) (h2 : FHistory .rfc5425 (h ++ .call g0 .endCall :: h' ++ [.ret g0]) f')
    (hone : called g0 h' = []) (c : Sender.Conn) (hc : f'.s.conns = [c])
    (lenQueue : Nat) (er : List Recv.Event) (q : Recv.State) (hq : Recv.run .rfc5425 lenQueue Recv.init er = some q) (hcr : q.crashed = false)
    (i : Nat) (k : Recv.Conn) (hi : q.conns[i]? = some k) (hwire : arrived (readsOf i er) = c.writes.flatten)
    (hp : k.pending = []) (hpipe : ofConn i q.pipeline = []) :
    ∃ a, (∀ g, ofGoroutine g a = passing p (prog g)) ∧ Each (Says host pid p app) (a.map (·.2)) (ofConn i q.got) := by
  have htr : ∀ g, ∀ m ∈ givenBy g (h ++ .call g0 .endCall :: h' ++ [.ret g0]), Transmissible m := by
    intro g m hm
    obtain ⟨cl, g1, g2⟩ := each_mem (runs_says h0 hfirst (hrun g)) m hm
    exact ⟨says_intact hpid g2 (hl g cl (List.mem_filter.mp (List.mem_of_mem_take g1)).1), hsize g m hm⟩
  obtain ⟨a, l, k1, k2, k3, k4⟩ := all_written h0 hfirst hrun
    (fun g m hm => by obtain ⟨b, _, hb, _⟩ := transmissible_frame (htr g m hm).toIntact; exact ⟨b, hb⟩) hdone h1 h2 hone
  refine ⟨a, k1, ?_⟩
  have main := C53_complete_partial _ f'.s k2.state
    (fun m hm => by obtain ⟨g, hg⟩ := sent_given h2 k2 hm; exact htr g m hg) c hc k4 lenQueue er q hq hcr i k hi hwire hp hpipe
  exact each_trans k3 main (fun _ _ _ _ u v => says_received u v)

/-- **C98**, LF and NUL transports. -/
theorem C98_lines_complete_partial (t : Transport) (z : UInt8) (ht : t = .lfEnded ∧ z = 10 ∨ t = .zeroEnded ∧ z = 0)
    (host : Option Bytes) (pid out : Nat) (p : Int) (app : Bytes) (hpid : pid < 2 ^ 63) (s0 s : Syslog) (x : Int)
    (c0 : Channel) (h0 : Syslog.new host pid out p app = some s0) (hfirst : s0.channel x = .ret (s, c0))
    (prog : Nat → List LogCall) (hl : ∀ g, ∀ c ∈ prog g, LoggableLine z c) (h h' : List FEvent) (g0 : Nat)
    (hrun : ∀ g, RunsLines s out (prog g) (givenBy g (h ++ .call g0 .endCall :: h' ++ [.ret g0])))
    (hdone : ∀ g, (returnedBy g h).length = (passing p (prog g)).length)
    (f f' : FState) (h1 : FHistory t h f) (h2 : FHistory t (h ++ .call g0 .endCall :: h' ++ [.ret g0]) f')
    (hone : called g0 h' = []) (c : Sender.Conn) (hc : f'.s.conns = [c])
    (lenQueue : Nat) (er : List Recv.Event) (q : Recv.State) (hq : Recv.run t lenQueue Recv.init er = some q) (hcr : q.crashed = false)
    (i : Nat) (k : Recv.Conn) (hi : q.conns[i]? = some k) (hwire : arrived (readsOf i er) = c.writes.flatten)
    (hp : k.pending = []) (hpipe : ofConn i q.pipeline = []) :
    ∃ a, (∀ g, ofGoroutine g a = passing p (prog g)) ∧ Each (Says host pid p app) (a.map (·.2)) (ofConn i q.got) := by
  have hz : z = 10 ∨ z = 0 := by rcases ht with ⟨_, h⟩ | ⟨_, h⟩ <;> simp [h]
  have htr : ∀ g, ∀ m ∈ givenBy g (h ++ .call g0 .endCall :: h' ++ [.ret g0]), TransmissibleLine z m := by
    intro g m hm
    obtain ⟨cl, g1, g2⟩ := each_mem (runs_says h0 hfirst (hrun g)) m hm
    exact says_line hpid g2 (hl g cl (List.mem_filter.mp (List.mem_of_mem_take g1)).1)
  obtain ⟨a, l, k1, k2, k3, k4⟩ := all_written h0 hfirst hrun
    (fun g m hm => by obtain ⟨_, hb, _⟩ := line_of_message hz (htr g m hm); exact ⟨_, hb⟩) hdone h1 h2 hone
  refine ⟨a, k1, ?_⟩
  have main := C72_complete_partial t z ht _ f'.s k2.state
    (fun m hm => by obtain ⟨g, hg⟩ := sent_given h2 k2 hm; exact htr g m hg) c hc k4 lenQueue er q hq hcr i k hi hwire hp hpipe
  exact each_trans k3 main (fun _ _ _ _ u v => says_received u v)

/-- A connection is changed between two frames if every write that fails has accepted nothing. -/
theorem clean_explained {t : Transport} {h : List FEvent} {f : FState} {l : List (Option Nat × Sender.Event)} (e : Explains t h f l)
    (hclean : ∀ nb x, FEvent.other (.write nb (some x)) ∈ h → nb = 0) : CutsBetween (frames t (l.map (·.2))) f.s.conns := by
  have hh : ∀ (h : List FEvent) (y : Sender.Event), y ∈ Spec.others h → FEvent.other y ∈ h := by
    intro h y
    induction h with
    | nil => intro hy; cases hy
    | cons z r ih =>
      cases z with
      | other w =>
        simp only [Spec.others, List.mem_cons]
        rintro (rfl | hy)
        · exact Or.inl rfl
        · exact Or.inr (ih hy)
      | _ => intro hy; exact List.mem_cons_of_mem _ (ih hy)
  refine cuts_of_clean e.state ?_
  intro nb x hmem
  obtain ⟨⟨o, y⟩, h1, h2⟩ := List.mem_map.mp hmem
  simp only at h2
  subst h2
  cases o with
  | none =>
    refine hclean nb x (hh h _ ?_)
    rw [← e.others]
    exact List.mem_map.mpr ⟨_, List.mem_filter.mpr ⟨h1, by simp⟩, rfl⟩
  | some g =>
    exfalso
    have h3 : Sender.Event.write nb (some x) ∈ own g l := List.mem_map.mpr ⟨_, List.mem_filter.mpr ⟨h1, by simp⟩, rfl⟩
    obtain ⟨o, _, h4⟩ := List.mem_map.mp ((e.order g).subset h3)
    cases o <;> simp [opEvent] at h4

/-- **C98**, several connections. As `C98_complete_partial`, on a sender that had to connect any number of times because
writes failed that had accepted nothing: connection by connection, `Receive` has returned one message for each line of each
goroutine, no other, those of every goroutine in the order of its program. -/
theorem C98_all_connections_partial (host : Option Bytes) (pid out : Nat) (p : Int) (app : Bytes) (hpid : pid < 2 ^ 63) (s0 s : Syslog) (x : Int)
    (c0 : Channel) (h0 : Syslog.new host pid out p app = some s0) (hfirst : s0.channel x = .ret (s, c0))
    (prog : Nat → List LogCall) (hl : ∀ g, ∀ c ∈ prog g, Loggable c) (h h' : List FEvent) (g0 : Nat)
    (hrun : ∀ g, RunsLines s out (prog g) (givenBy g (h ++ .call g0 .endCall :: h' ++ [.ret g0])))
    (hdone : ∀ g, (returnedBy g h).length = (passing p (prog g)).length)
    (hsize : ∀ g, ∀ m ∈ givenBy g (h ++ .call g0 .endCall :: h' ++ [.ret g0]), ∀ b, m.marshal = .ret (.ok b) → b.length < 2 ^ 62)
    (f f' : FState) (h1 : FHistory .rfc5425 h f) (h2 : FHistory .rfc5425 (h ++ .call g0 .endCall :: h' ++ [.ret g0]) f')
    (hone : called g0 h' = [])
    (hclean : ∀ nb y, FEvent.other (.write nb (some y)) ∈ h ++ .call g0 .endCall :: h' ++ [.ret g0] → nb = 0)
    (lenQueue : Nat) (er : List Recv.Event) (q : Recv.State) (hq : Recv.run .rfc5425 lenQueue Recv.init er = some q) (hcr : q.crashed = false)
    (j : Nat → Nat) (hj : ∀ (n : Nat) (c : Sender.Conn), f'.s.conns[n]? = some c → ∃ k, q.conns[j n]? = some k ∧
      arrived (readsOf (j n) er) = c.writes.flatten ∧ k.pending = [] ∧ ofConn (j n) q.pipeline = []) :
    ∃ a, (∀ g, ofGoroutine g a = passing p (prog g)) ∧
      Each (Says host pid p app) (a.map (·.2)) ((List.range f'.s.conns.length).flatMap fun n => ofConn (j n) q.got) := by
  have htr : ∀ g, ∀ m ∈ givenBy g (h ++ .call g0 .endCall :: h' ++ [.ret g0]), Transmissible m := by
    intro g m hm
    obtain ⟨cl, g1, g2⟩ := each_mem (runs_says h0 hfirst (hrun g)) m hm
    exact ⟨says_intact hpid g2 (hl g cl (List.mem_filter.mp (List.mem_of_mem_take g1)).1), hsize g m hm⟩
  obtain ⟨a, l, k1, k2, k3, k4⟩ := all_written h0 hfirst hrun
    (fun g m hm => by obtain ⟨b, _, hb, _⟩ := transmissible_frame (htr g m hm).toIntact; exact ⟨b, hb⟩) hdone h1 h2 hone
  refine ⟨a, k1, ?_⟩
  have main := C53_all_connections_partial _ f'.s k2.state (clean_explained k2 hclean)
    (fun m hm => by obtain ⟨g, hg⟩ := sent_given h2 k2 hm; exact htr g m hg) k4 lenQueue er q hq hcr j hj
  exact each_trans k3 main (fun _ _ _ _ u v => says_received u v)

/-- **C98**, several connections, LF and NUL transports. -/
theorem C98_lines_all_connections_partial (t : Transport) (z : UInt8) (ht : t = .lfEnded ∧ z = 10 ∨ t = .zeroEnded ∧ z = 0)
    (host : Option Bytes) (pid out : Nat) (p : Int) (app : Bytes) (hpid : pid < 2 ^ 63) (s0 s : Syslog) (x : Int)
    (c0 : Channel) (h0 : Syslog.new host pid out p app = some s0) (hfirst : s0.channel x = .ret (s, c0))
    (prog : Nat → List LogCall) (hl : ∀ g, ∀ c ∈ prog g, LoggableLine z c) (h h' : List FEvent) (g0 : Nat)
    (hrun : ∀ g, RunsLines s out (prog g) (givenBy g (h ++ .call g0 .endCall :: h' ++ [.ret g0])))
    (hdone : ∀ g, (returnedBy g h).length = (passing p (prog g)).length)
    (f f' : FState) (h1 : FHistory t h f) (h2 : FHistory t (h ++ .call g0 .endCall :: h' ++ [.ret g0]) f')
    (hone : called g0 h' = [])
    (hclean : ∀ nb y, FEvent.other (.write nb (some y)) ∈ h ++ .call g0 .endCall :: h' ++ [.ret g0] → nb = 0)
    (lenQueue : Nat) (er : List Recv.Event) (q : Recv.State) (hq : Recv.run t lenQueue Recv.init er = some q) (hcr : q.crashed = false)
    (j : Nat → Nat) (hj : ∀ (n : Nat) (c : Sender.Conn), f'.s.conns[n]? = some c → ∃ k, q.conns[j n]? = some k ∧
      arrived (readsOf (j n) er) = c.writes.flatten ∧ k.pending = [] ∧ ofConn (j n) q.pipeline = []) :
    ∃ a, (∀ g, ofGoroutine g a = passing p (prog g)) ∧
      Each (Says host pid p app) (a.map (·.2)) ((List.range f'.s.conns.length).flatMap fun n => ofConn (j n) q.got) := by
  have hz : z = 10 ∨ z = 0 := by rcases ht with ⟨_, h⟩ | ⟨_, h⟩ <;> simp [h]
  have htr : ∀ g, ∀ m ∈ givenBy g (h ++ .call g0 .endCall :: h' ++ [.ret g0]), TransmissibleLine z m := by
    intro g m hm
    obtain ⟨cl, g1, g2⟩ := each_mem (runs_says h0 hfirst (hrun g)) m hm
    exact says_line hpid g2 (hl g cl (List.mem_filter.mp (List.mem_of_mem_take g1)).1)
  obtain ⟨a, l, k1, k2, k3, k4⟩ := all_written h0 hfirst hrun
    (fun g m hm => by obtain ⟨_, hb, _⟩ := line_of_message hz (htr g m hm); exact ⟨_, hb⟩) hdone h1 h2 hone
  refine ⟨a, k1, ?_⟩
  have main := C72_all_connections_partial t z ht _ f'.s k2.state (clean_explained k2 hclean)
    (fun m hm => by obtain ⟨g, hg⟩ := sent_given h2 k2 hm; exact htr g m hg) k4 lenQueue er q hq hcr j hj
  exact each_trans k3 main (fun _ _ _ _ u v => says_received u v)

/-- **C98 fails** if `Channel` was not called before the goroutines start: of two goroutines whose first lines pass the
threshold, one can get the channel that drops everything, whatever it then logs; run one after the other both are sent. -/
theorem C98_race_violated : ∃ s0, Syslog.new (some b!"h") 1 0 7 b!"app" = some s0 ∧
    (∀ l : LogCall, l.sev = 0 → passing 7 [l] = [l]) ∧
    ∃ ch, (s0.concRun (fun _ => 0) [0, 0, 1, 1]).2 1 = .done ch ∧
      ∀ (names : List Bytes) (now : Time) (text : Bytes) (sd : List SD),
        (Channel.write now text (names.foldl Channel.appName ch)).2 = [] ∧ Channel.log now text sd (names.foldl Channel.appName ch) = [] := by
  obtain ⟨s0, _, _, h1, h2, _, _⟩ := C57_race_violated
  refine ⟨s0, h1, ?_, .devNull, h2, ?_⟩
  · intro l hl
    simp [passing, hl]
  · intro names now text sd
    rw [names_devNull]
    exact ⟨rfl, rfl⟩

/-! The hypotheses are met by two goroutines that log at the same time, the second one overtaking the first. -/

/-- The programs: goroutine 1 logs one line (and one that is filtered out), goroutine 2 another one. -/
def demoProgs : Nat → List LogCall
  | 1 => [⟨7, [], none, demoNow, b!"filtered", some []⟩, ⟨0, [], none, demoNow, b!"one", none⟩]
  | 2 => [⟨5, [b!"db"], some b!"ID47", demoNow, b!"two", some (exampleMsg b!"").sd⟩]
  | _ => []

/-- What goroutine 1 gives to `Send`. -/
def demoOne : Message := ⟨160, demoNow, b!"host", b!"app", b!"42", b!"-", [], b!"one"⟩
/-- What goroutine 2 gives to `Send`. -/
def demoTwo : Message := ⟨165, demoNow, b!"host", b!"app/db", b!"42", b!"ID47", (exampleMsg b!"").sd, b!"two"⟩

/-- The frames, in the order in which they are written. -/
def demoTwoOne : List Bytes := [frameOf .rfc5425 demoTwo, frameOf .rfc5425 demoOne]

/-- The calls of `Send`: goroutine 1 calls first, goroutine 2 takes the lock first. -/
def demoSends : List FEvent :=
  [.call 1 (.send demoOne), .tau 1, .call 2 (.send demoTwo), .tau 2, .tau 2, .tau 2, .tau 2, .ret 2, .tau 1, .tau 1, .tau 1, .ret 1]

/-- The sender while `End` waits. -/
def demoEnding : List FEvent :=
  [.tau 3, .other .seeEnd, .other .tau, .other .tau, .other (.connect none), .other .tau, .other .tau,
   .other (.write (demoTwoOne[0]!).length none), .other (.write (demoTwoOne[1]!).length none),
   .other .tau, .other .tau, .other .tau, .other .tau, .other .tau, .other .tau]

/-- The `Syslog` after its first `Channel`. -/
def demoSyslog : Syslog :=
  { (Syslog.new (some b!"host") 42 3 166 b!"app").get rfl with channels := ((Syslog.new (some b!"host") 42 3 166 b!"app").get rfl).table }

example : ∃ s0 c0, Syslog.new (some b!"host") 42 3 166 b!"app" = some s0 ∧ s0.channel 0 = .ret (demoSyslog, c0) :=
  ⟨_, _, rfl, by with_unfolding_all rfl⟩

example : logAll demoSyslog (demoProgs 1) = .ret (demoSyslog, [demoOne].map fun m => (3, m)) ∧
    logAll demoSyslog (demoProgs 2) = .ret (demoSyslog, [demoTwo].map fun m => (3, m)) :=
  ⟨by with_unfolding_all rfl, by with_unfolding_all rfl⟩

example : returnedBy 1 demoSends = [demoOne] ∧ returnedBy 2 demoSends = [demoTwo] ∧
    givenBy 1 (demoSends ++ .call 3 .endCall :: demoEnding ++ [.ret 3]) = [demoOne] ∧
    givenBy 2 (demoSends ++ .call 3 .endCall :: demoEnding ++ [.ret 3]) = [demoTwo] ∧ called 3 demoEnding = [] :=
  ⟨rfl, rfl, rfl, rfl, rfl⟩

example : ∃ f, FHistory .rfc5425 (demoSends ++ .call 3 .endCall :: demoEnding ++ [.ret 3]) f ∧
    f.s.conns = [⟨demoTwoOne, true⟩] := by
  obtain ⟨f, h1, h2, _⟩ := fhistory_of (t := .rfc5425) (h := demoSends ++ .call 3 .endCall :: demoEnding ++ [.ret 3]) (o := none)
    (s := ⟨[], [⟨demoTwoOne, true⟩], true, false, [], true, true, false, false, .closeErr⟩) (by decide +kernel)
  exact ⟨f, h1, by rw [h2]⟩

example : (match Recv.run .rfc5425 0 Recv.init [.tau, .acceptOk, .read 0 { data := demoTwoOne.flatten.take 60 }, .read 0 { data := demoTwoOne.flatten.drop 60 },
      .handoff 0, .handoff 0] with
    | some q => !q.crashed && q.pipeline.isEmpty && decide ((ofConn 0 q.got).length = 2) && q.conns.all fun k => k.pending.isEmpty
    | none => false) = true := by decide +kernel

/-! Several connections: the second write on the first connection fails and accepts nothing; `End` writes the rest to a second
connection. -/

/-- Until `End` is called. -/
def demoSendsFailed : List FEvent := demoSends ++ [.other .tick, .other .tau, .other (.connect none), .other .tau, .other .tau,
   .other (.write (demoTwoOne[0]!).length none), .other (.write 0 (some (.other 0))), .other .tau, .other .tau]

/-- While `End` waits. -/
def demoEndingAgain : List FEvent :=
  [.tau 3, .other .seeEnd, .other .tau, .other .tau, .other (.connect none), .other .tau, .other .tau,
   .other (.write (demoTwoOne[1]!).length none), .other .tau, .other .tau, .other .tau, .other .tau, .other .tau, .other .tau]

example : returnedBy 1 demoSendsFailed = [demoOne] ∧ returnedBy 2 demoSendsFailed = [demoTwo] ∧
    givenBy 1 (demoSendsFailed ++ .call 3 .endCall :: demoEndingAgain ++ [.ret 3]) = [demoOne] ∧
    givenBy 2 (demoSendsFailed ++ .call 3 .endCall :: demoEndingAgain ++ [.ret 3]) = [demoTwo] ∧ called 3 demoEndingAgain = [] :=
  ⟨rfl, rfl, rfl, rfl, rfl⟩

example : ∀ nb y, FEvent.other (.write nb (some y)) ∈ demoSendsFailed ++ .call 3 .endCall :: demoEndingAgain ++ [.ret 3] → nb = 0 := by
  intro nb y h
  simp only [demoSendsFailed, demoSends, demoEndingAgain, List.cons_append, List.nil_append, List.append_assoc, List.mem_cons, List.not_mem_nil,
    or_false, FEvent.other.injEq, Sender.Event.write.injEq, reduceCtorEq, false_or, and_false] at h
  exact h.1

example : ∃ f, FHistory .rfc5425 (demoSendsFailed ++ .call 3 .endCall :: demoEndingAgain ++ [.ret 3]) f ∧
    f.s.conns = [⟨[demoTwoOne[0]!, []], false⟩, ⟨[demoTwoOne[1]!], true⟩] := by
  obtain ⟨f, h1, h2, _⟩ := fhistory_of (t := .rfc5425) (h := demoSendsFailed ++ .call 3 .endCall :: demoEndingAgain ++ [.ret 3]) (o := none)
    (s := ⟨[], [⟨[demoTwoOne[0]!, []], false⟩, ⟨[demoTwoOne[1]!], true⟩], true, false, [.write 0], true, true, false, false, .closeErr⟩) (by decide +kernel)
  exact ⟨f, h1, by rw [h2]⟩

example : (match Recv.run .rfc5425 0 Recv.init [.tau, .acceptOk, .tau, .acceptOk, .read 1 { data := demoTwoOne[1]! }, .handoff 1,
      .read 0 { data := (demoTwoOne[0]!).take 60 }, .read 0 { data := (demoTwoOne[0]!).drop 60 }, .handoff 0] with
    | some q => !q.crashed && q.pipeline.isEmpty && decide ((ofConn 0 q.got).length = 1) && decide ((ofConn 1 q.got).length = 1) &&
      q.conns.all fun k => k.pending.isEmpty
    | none => false) = true := by decide +kernel

end Syslog5424
