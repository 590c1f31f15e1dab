import Verif.Props.Loggers
import Verif.Props.SendCalls
/-! # C118: everything that is logged on several loggers is received -/
namespace Syslog5424
open Spec Sender

theorem beginOn_each {L : Nat → Logger} {ss : Nat → Syslog} {out : Nat} (hmade : ∀ k, (L k).Made out (ss k))
    {prog : Nat → Nat → List (Nat × LogCall)} {ev : Nat → Option FEvent} (hrun : BeginOn ss out prog ev) (g n : Nat) :
    Each (fun c m => SaysOnMessage (L c.1) c.2 m) (passingOn L (prog g n)) (givenBy g (past ev n)) := by
  obtain ⟨ms, h1, h2⟩ := logOn_stable hmade (prog g n)
  rw [hrun.2 g n] at h1
  simp only [Out.ret.injEq, Prod.mk.injEq, true_and] at h1
  have := congrArg (List.map Prod.snd) h1
  simp only [List.map_map, Function.comp_def, List.map_id'] at this
  rw [this]; exact h2

/-- A message given to `Send` was said by a line. -/
theorem lineOn_of_call {L : Nat → Logger} {ss : Nat → Syslog} {out : Nat} (hmade : ∀ k, (L k).Made out (ss k))
    {prog : Nat → Nat → List (Nat × LogCall)} {ev : Nat → Option FEvent} (hrun : BeginOn ss out prog ev) {n g : Nat} {m : Message}
    (h : ev n = some (.call g (.send m))) : ∃ cl ∈ prog g (n + 1), SaysOnMessage (L cl.1) cl.2 m := by
  have hm : m ∈ givenBy g (past ev (n + 1)) := by
    rw [past_succ, h]
    unfold givenBy
    rw [called_append]
    simp [messagesOf, called]
  obtain ⟨cl, g1, g2⟩ := each_mem (beginOn_each hmade hrun g (n + 1)) m hm
  exact ⟨cl, (List.mem_filter.mp g1).1, g2⟩

/-- From the messages of the goroutines to their log lines. -/
theorem linesOn_said {L : Nat → Logger} {ss : Nat → Syslog} {out : Nat} (hmade : ∀ k, (L k).Made out (ss k))
    {prog : Nat → Nat → List (Nat × LogCall)} {ev : Nat → Option FEvent} (hrun : BeginOn ss out prog ev) {n : Nat} {a : List (Nat × Message)}
    {n' : Nat} (ha : ∀ g, givenBy g (past ev n) <+: ofGoroutine g a ∧ ofGoroutine g a <+: givenBy g (past ev n')) :
    ∃ b, BeforeOn L prog n b ∧ Each (fun c m => SaysOnMessage (L c.1) c.2 m) (b.map (·.2)) (a.map (·.2)) := by
  have each := beginOn_each hmade hrun
  have hgrow := hrun.1
  obtain ⟨b, k1, k2, k3⟩ := relabel (R := fun c m => SaysOnMessage (L c.1) c.2 m) a (fun g => passingOn L (prog g n')) (by
    intro g
    have := each g n'
    obtain ⟨tl, htl⟩ := (ha g).2
    rw [← htl] at this
    exact ⟨_, each_prefix this⟩)
  refine ⟨b, ⟨max n n', fun g => ⟨?_, ?_⟩⟩, k2⟩
  · have hp1 : passingOn L (prog g n) <+: passingOn L (prog g (max n n')) := (hgrow g n _ (Nat.le_max_left _ _)).filter _
    have hp2 : ofGoroutine g b <+: passingOn L (prog g (max n n')) := (k3 g).trans ((hgrow g n' _ (Nat.le_max_right _ _)).filter _)
    refine List.prefix_of_prefix_length_le hp1 hp2 ?_
    rw [ofGoroutine_length k1, ← each_length (each g n)]
    exact (ha g).1.length_le
  · exact (k3 g).trans ((hgrow g n' _ (Nat.le_max_right _ _)).filter _)

/-- **C118.** Whatever several goroutines log on several loggers is received, in every fair execution in which the network works at last, `End` is
not called and failing writes had accepted nothing: at some moment what `Receive` has returned, connection by connection, says the lines (those
that pass the threshold of their logger) that the goroutines have begun before the moment `n`, interleaved, each once, on the logger on which it was
written, the lines of every goroutine in its order. -/
theorem C118_eventually_partial (t : Transport) (L : Nat → Logger) (ss : Nat → Syslog) (out : Nat) (hmade : ∀ k, (L k).Made out (ss k))
    (prog : Nat → Nat → List (Nat × LogCall)) (hl : ∀ g n, ∀ c ∈ prog g n, TravelsOn t (L c.1) c.2)
    (ev : Nat → Option FEvent) (st : Nat → FState) (hlog : BeginOn ss out prog ev)
    (hsize : t = .rfc5425 → ∀ n g m, ev n = some (.call g (.send m)) → ∀ b, m.marshal = .ret (.ok b) → b.length < 2 ^ 62) (hx : FExec t ev st)
    (hrun : RunnerScheduled t ev st) (hgo : ∀ g, Scheduled t g ev st) (hread : ErrorsRead fun n => (st n).s)
    (hcs : ∀ n, (st n).s.crashed = false) (hrec : Recovers (environment ev)) (hend : ∀ n g, ev n ≠ some (.call g .endCall))
    (hclean : ∀ n nb x, ev n = some (.other (.write nb (some x))) → nb = 0)
    (lenQueue : Nat) (er : Nat → Option Recv.Event) (sr : Nat → Recv.State)
    (hxr : ReceiverExec t lenQueue er sr) (hcons : Consumed t lenQueue er sr) (herr : ErrorsDrained sr)
    (hc : ∀ n, (sr n).crashed = false) (f : Nat → Nat)
    (hopen : ∀ j, Opened (fun n => (st n).s) j → Served t lenQueue (f j) er sr ∧ ∃ n, f j < (sr n).conns.length)
    (hlink : Links (fun n => (st n).s) f er) (n : Nat) :
    ∃ m k a, BeforeOn L prog n a ∧
      Each (fun c d => SaysOn (L c.1) c.2 d) (a.map (·.2)) ((receivedOver f k (sr m).got).take a.length) := by
  have hmsgs : ∀ n g m, ev n = some (.call g (.send m)) → TravelsOver t m := by
    intro n g m h
    obtain ⟨cl, h1, h2⟩ := lineOn_of_call hmade hlog h
    exact saysOn_travels h2 (hl g (n + 1) cl h1) (fun e => hsize e n g m h)
  have main : ∃ m k a, GivenBefore ev n a ∧ Each IsReceived (a.map (·.2)) ((receivedOver f k (sr m).got).take a.length) := by
    cases t with
    | rfc5425 => exact C104_delivered_partial ev st hx hrun hgo hread hcs hrec hend hclean (fun n g m h => (hmsgs n g m h).1 rfl) lenQueue er sr hxr hcons herr hc f hopen hlink n
    | lfEnded => exact C104_lines_partial .lfEnded 10 (.inl ⟨rfl, rfl⟩) ev st hx hrun hgo hread hcs hrec hend hclean (fun n g m h => (hmsgs n g m h).2 10 rfl) lenQueue er sr hxr hcons herr hc f hopen hlink n
    | zeroEnded => exact C104_lines_partial .zeroEnded 0 (.inr ⟨rfl, rfl⟩) ev st hx hrun hgo hread hcs hrec hend hclean (fun n g m h => (hmsgs n g m h).2 0 rfl) lenQueue er sr hxr hcons herr hc f hopen hlink n
  obtain ⟨m, k, a, ⟨n', ha⟩, main⟩ := main
  obtain ⟨b, h1, h2⟩ := linesOn_said hmade hlog ha
  refine ⟨m, k, b, h1, ?_⟩
  have hlen : b.length = a.length := by have := each_length h2; simpa using this.symm
  rw [hlen]
  exact each_trans h2 main (fun _ _ _ _ u v => saysOn_received u v)

/-! The hypotheses are met by the execution of `twoForever_meets` (which shows those on the sender and on the network): two goroutines
that log on two loggers, one made by `New(…, "app")`, the other one by `New(…, "-")` and `SubSyslog("app")`. -/

/-- The loggers. -/
def twoLoggers : Nat → Logger
  | 1 => ⟨some b!"host", 42, 166, b!"-", [b!"app"]⟩
  | _ => ⟨some b!"host", 42, 166, b!"app", []⟩

/-- The second object. -/
def twoSub : Syslog :=
  match ((Syslog.new (some b!"host") 42 3 166 b!"-").get rfl).subSyslog b!"app" with
  | .ret s => s
  | _ => demoSyslog

/-- The objects. -/
def twoObjects : Nat → Syslog
  | 1 => twoSub
  | _ => demoSyslog

theorem twoLoggers_app : (⟨some b!"host", 42, 166, b!"app", []⟩ : Logger).Made 3 demoSyslog := ⟨_, _, 0, _, rfl, rfl, by with_unfolding_all rfl⟩

theorem twoLoggers_sub : (⟨some b!"host", 42, 166, b!"-", [b!"app"]⟩ : Logger).Made 3 twoSub := by
  have e : ((Syslog.new (some b!"host") 42 3 166 b!"-").get rfl).subSyslog b!"app" = .ret twoSub := by with_unfolding_all rfl
  refine ⟨(Syslog.new (some b!"host") 42 3 166 b!"-").get rfl, twoSub, 0, _, rfl, ?_, by with_unfolding_all rfl⟩
  show (do let s ← ((Syslog.new (some b!"host") 42 3 166 b!"-").get rfl).subSyslog b!"app"; s.calls []) = _
  rw [e]; rfl

theorem twoLoggers_made (k : Nat) : (twoLoggers k).Made 3 (twoObjects k) := by
  match k with
  | 0 => exact twoLoggers_app
  | 1 => exact twoLoggers_sub
  | _ + 2 => exact twoLoggers_app

/-- What goroutine `g` has begun at the moment `n`: goroutine 1 logs on logger 0, goroutine 2 on logger 1. -/
def twoProgsOn (g n : Nat) : List (Nat × LogCall) :=
  if g = 1 ∧ 0 < n ∨ g = 2 ∧ 2 < n then [(g - 1, ⟨0, [], none, demoNow, b!"written\n", none⟩)] else []

theorem twoProgsOn_begin : BeginOn twoObjects 3 twoProgsOn (flassoEv twoForever 38 5) := by
  refine ⟨?_, ?_⟩
  · intro g n m hnm
    unfold twoProgsOn
    split
    · rw [if_pos (by omega)]; exact List.prefix_refl _
    · exact List.nil_prefix
  · intro g n
    rw [twoForever_given]
    unfold twoProgsOn
    split
    · next h =>
      obtain ⟨ms, h1, _⟩ := logOn_stable twoLoggers_made [(g - 1, ⟨0, [], none, demoNow, b!"written\n", none⟩)]
      rw [h1]
      have h2 : (match logOn twoObjects [(g - 1, ⟨0, [], none, demoNow, b!"written\n", none⟩)] with | .ret (_, x) => some x | _ => none) =
          some [(3, demoLineLogged)] := by
        rcases h with ⟨rfl, _⟩ | ⟨rfl, _⟩ <;> with_unfolding_all rfl
      rw [h1] at h2
      simp only [Option.some.injEq] at h2
      rw [h2]; rfl
    · rfl

theorem twoLoggers_name (k : Nat) (r : Bytes) (h : NamePath (twoLoggers k).app (twoLoggers k).subs [] r) : ValidField 48 r := by
  match k with
  | 0 => exact C118_without_sub b!"app" r h
  | 1 =>
    have base : ∀ ss ns x, NamePath b!"-" ss ns x → ss = [] → ns = [] → x = b!"-" := by
      intro ss ns x h
      cases h with
      | new h => intro _ _; rw [sanitised_unique h (validator_sanitised b!"-" 48)]; decide +kernel
      | sub _ => intro hs; simp at hs
      | appName _ _ => intro _ hn; simp at hn
    have key : ∀ ss ns, NamePath b!"-" ss ns r → ss = [b!"app"] → ns = [] → ValidField 48 r := by
      intro ss ns h0
      cases h0 with
      | new _ => intro hs _; simp at hs
      | @sub ss' n' r' h2 =>
        intro hs _
        obtain ⟨e1, hn⟩ : ss' = [] ∧ n' = b!"app" := by simpa using (List.append_inj' (t₂ := [b!"app"]) (s₂ := []) hs rfl)
        subst e1
        subst hn
        rw [base _ _ _ h2 rfl rfl]
        decide +kernel
      | appName _ _ => intro _ hn; simp at hn
    exact key _ _ h rfl rfl
  | n + 2 => exact C118_without_sub b!"app" r h

theorem twoProgsOn_travels : ∀ g n, ∀ c ∈ twoProgsOn g n, TravelsOn .lfEnded (twoLoggers c.1) c.2 := by
  intro g n c hc
  unfold twoProgsOn at hc
  split at hc
  · simp only [List.mem_cons, List.not_mem_nil, or_false] at hc
    subst hc
    refine ⟨?_, ⟨nofun, ?_⟩, fun _ => twoLoggers_name _⟩
    · show (twoLoggers (g - 1)).pid < 2 ^ 63
      match g - 1 with
      | 0 => exact (by decide : (42 : Nat) < 2 ^ 63)
      | 1 => exact (by decide : (42 : Nat) < 2 ^ 63)
      | _ + 2 => exact (by decide : (42 : Nat) < 2 ^ 63)
    · intro z hz
      cases hz
      exact demoLineLog_loggable _ (by simp [demoLineLog])
  · cases hc

end Syslog5424
