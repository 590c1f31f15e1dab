import Verif.Lemmas.Race
import Verif.Props.Sender
/-! # C87: the queue of a sender and its goroutines -/
namespace Syslog5424
open Sender Spec

section
variable {t : Transport} {es : List (Nat × Event)} {sf : State}

/-- Two conflicting operations of two goroutines are ordered, or one of them is the read without the lock. -/
theorem ordered_or_drain (h : History t (es.map Prod.snd) sf) (sync : Nat → Nat → Prop) {i j : Nat} {a b : Op} (hij : i < j)
    (ha : (ops t init es)[i]? = some a) (hb : (ops t init es)[j]? = some b) (hg : a.goroutine ≠ b.goroutine) (hc : Conflict a b) :
    HappensBefore (ops t init es) sync i j ∨
    (a = { goroutine := none, reads := true } ∧ b.goroutine ≠ none ∧ b.writes = true ∧ ∃ s, At t es i s ∧ s.pc = .drain) ∨
    (b = { goroutine := none, reads := true } ∧ a.goroutine ≠ none ∧ a.writes = true ∧ ∃ s, At t es j s ∧ s.pc = .drain) := by
  have hj : j < es.length := by
    have := (List.getElem?_eq_some_iff.1 hb).1
    rwa [ops_length h] at this
  obtain ⟨sa, sa', ga, ea, hsa, hea, hopa, hsta, hsa'⟩ := ops_get h ha
  obtain ⟨sb, sb', gb, eb, hsb, heb, hopb, hstb, hsb'⟩ := ops_get h hb
  have hta : a.reads = true ∨ a.writes = true := hc.elim (fun h => .inr h.1) (fun h => h.2)
  have htb : b.reads = true ∨ b.writes = true := hc.elim (fun h => h.2) (fun h => .inr h.1)
  have ca := op_cases (at_inv hsa) hsta (g := ga) (hopa ▸ hta)
  have cb := op_cases (at_inv hsb) hstb (g := gb) (hopb ▸ htb)
  rw [← hopa] at ca
  rw [← hopb] at cb
  rcases ca with ⟨ca, la, la', _⟩ | ⟨ca, la, la'⟩ | ⟨ca, pa⟩ <;> rcases cb with ⟨cb, lb, lb', _⟩ | ⟨cb, lb, lb'⟩ | ⟨cb, pb⟩
  · -- two calls of `Send`
    exact .inl (.mutex hij ha hb (by simp [ca]) (by simp [cb]))
  · -- `Send`, then `runQueue` with the lock
    obtain ⟨k, x, y, g, e, hk1, hk2, hx, hy, hop, hst, hpx, hpy, _⟩ :=
      became h (fun s => s.locked) (m := i + 1) (n := j) (by omega) (by omega) hsa' hsb la' lb
    obtain ⟨h1, h2⟩ := (lock_change hst (g := g)).1 hpx hpy
    exact .inl (.trans (.mutex (by omega) ha hop (by simp [ca]) h2) (.program hk2 hop hb (h1.trans cb.symm)))
  · exact .inr (.inr ⟨cb, by simp [ca], by simp [ca], sb, hsb, pb⟩)
  · -- `runQueue` with the lock, then `Send`
    rcases la' with la' | la'
    · obtain ⟨k, x, y, g, e, hk1, hk2, hx, hy, hop, hst, hpx, hpy, _⟩ :=
        became h (fun s => !s.locked) (m := i + 1) (n := j) (by omega) (by omega) hsa' hsb (by simp [la']) (by simp [lb])
      obtain ⟨h1, h2⟩ := (lock_change hst (g := g)).2 (by simpa using hpx) (by simpa using hpy)
      exact .inl (.trans (.program (by omega) ha hop (ca.trans h1.symm)) (.mutex hk2 hop hb h2 (by simp [cb])))
    · exact .inl (.mutex hij ha hb la' (by simp [cb]))
  · exact absurd (ca.trans cb.symm) hg
  · exact absurd (by simp [ca, cb]) hg
  · exact .inr (.inl ⟨ca, by simp [cb], by simp [cb], sa, hsa, pa⟩)
  · exact absurd (by simp [ca, cb]) hg
  · exact absurd (by simp [ca, cb]) hg

/-- Before the read without the lock, `runQueue` noticed that `End` was called. -/
theorem drain_after_end (h : History t (es.map Prod.snd) sf) {n : Nat} (hn : n ≤ es.length) {s : State} (hs : At t es n s) (hp : s.pc = .drain) :
    ∃ k l a b, k < l ∧ l < n ∧ (ops t init es)[k]? = some a ∧ a.closesEnd = true ∧ (ops t init es)[l]? = some b ∧ b.goroutine = none ∧
      b.seesEnd = true ∧ ∀ i x, k < i → i ≤ l → At t es i x → x.endAsked = true := by
  obtain ⟨l, x, y, g, e, _, hl, hx, hy, hop, hst, hpx, hpy, _⟩ :=
    became h (fun s => ending s.pc) (m := 0) (n := n) (by omega) hn at_zero hs rfl (by simp [hp, ending])
  obtain ⟨h1, h2⟩ := (end_change hst (g := g)).2.1 hpx hpy
  have hya := (at_inv hy).fin hpy
  obtain ⟨k, x', y', g', e', _, hk, hx', hy', hop', hst', hpx', hpy', hafter⟩ :=
    became h (fun s => s.endAsked) (m := 0) (n := l + 1) (by omega) (by omega) at_zero hy rfl hya
  have h3 := (end_change hst' (g := g')).1 hpx' hpy'
  have hne : k ≠ l := by
    rintro rfl
    rw [hop] at hop'
    have heq := Option.some.inj hop'
    rw [heq] at h1
    cases e' <;> simp_all [opOf] <;> split at h3 <;> simp_all
  exact ⟨k, l, _, _, by omega, hl, hop', h3, hop, h1, h2, fun i x hi1 hi2 hx => hafter i x hi1 (by omega) hx⟩

theorem closes_unique {k : Nat} {a : Op} (h : History t (es.map Prod.snd) sf) (ha : (ops t init es)[k]? = some a) (hc : a.closesEnd = true)
    {l : Nat} (hafter : ∀ i x, l < i → i ≤ k → At t es i x → x.endAsked = true) : k ≤ l := by
  apply Nat.le_of_not_lt
  intro hlt
  obtain ⟨s, s', g, e, hs, _, hop, hst, _⟩ := ops_get h ha
  have := hafter k s hlt (Nat.le_refl _) hs
  rw [hop] at hc
  cases e with
  | endCall => simp [opOf, this] at hc
  | send m => simp only [opOf] at hc; split at hc <;> simp at hc
  | tau => simp only [opOf] at hc; split at hc <;> simp at hc
  | _ => simp [opOf] at hc

/-- A data race is between a call of `Send` and the read of the queue that `runQueue` makes without the lock once it has
noticed a call of `End`. -/
theorem C87_only_after_end (h : History t (es.map Prod.snd) sf) (sync : Nat → Nat → Prop) (i j : Nat) (hr : Race (ops t init es) sync i j) :
    ∃ r w k l a b c d, (r = i ∧ w = j ∨ r = j ∧ w = i) ∧ k < l ∧ l < r ∧
      (ops t init es)[k]? = some a ∧ a.closesEnd = true ∧ (ops t init es)[l]? = some b ∧ b.goroutine = none ∧ b.seesEnd = true ∧
      (ops t init es)[r]? = some c ∧ c = { goroutine := none, reads := true } ∧
      (ops t init es)[w]? = some d ∧ d.goroutine ≠ none ∧ d.writes = true := by
  obtain ⟨hij, a, b, ha, hb, hg, hc, hn⟩ := hr
  have hj : j < es.length := by
    have := (List.getElem?_eq_some_iff.1 hb).1
    rwa [ops_length h] at this
  rcases ordered_or_drain h sync hij ha hb hg hc with ho | ⟨h1, h2, h3, s, hs, hp⟩ | ⟨h1, h2, h3, s, hs, hp⟩
  · exact absurd ho hn
  · obtain ⟨k, l, x, y, hkl, hl, hx, hcx, hy, hgy, hsy, _⟩ := drain_after_end h (by omega) hs hp
    exact ⟨i, j, k, l, x, y, a, b, .inl ⟨rfl, rfl⟩, hkl, hl, hx, hcx, hy, hgy, hsy, ha, h1, hb, h2, h3⟩
  · obtain ⟨k, l, x, y, hkl, hl, hx, hcx, hy, hgy, hsy, _⟩ := drain_after_end h (by omega) hs hp
    exact ⟨j, i, k, l, x, y, b, a, .inr ⟨rfl, rfl⟩, hkl, hl, hx, hcx, hy, hgy, hsy, hb, h1, ha, h2, h3⟩

/-- As long as `End` is not called, a sender has no data race, whatever its goroutines do. -/
theorem C87_no_end_partial (h : History t (es.map Prod.snd) sf) (hend : ∀ g, (g, Event.endCall) ∉ es) (sync : Nat → Nat → Prop) (i j : Nat) :
    ¬ Race (ops t init es) sync i j := by
  intro hr
  obtain ⟨_, _, k, l, a, _, _, _, _, _, _, ha, hc, _⟩ := C87_only_after_end h sync i j hr
  obtain ⟨s, s', g, e, hs, he, hop, hst, _⟩ := ops_get h ha
  rw [hop] at hc
  cases e with
  | endCall => exact hend g (List.mem_of_getElem? he)
  | send m => simp only [opOf] at hc; split at hc <;> simp at hc
  | tau => simp only [opOf] at hc; split at hc <;> simp at hc
  | _ => simp [opOf] at hc

/-- If every call of `Send` that accepts a message happens before the call of `End`, or after `End` returned, then a
sender has no data race. -/
theorem C87_quiet_end_partial (h : History t (es.map Prod.snd) sf) (sync : Nat → Nat → Prop)
    (hq : ∀ w d, (ops t init es)[w]? = some d → d.goroutine ≠ none → d.writes = true →
      ∃ k a, (ops t init es)[k]? = some a ∧
        (a.closesEnd = true ∧ HappensBefore (ops t init es) sync w k ∨ a.completes = true ∧ HappensBefore (ops t init es) sync k w))
    (i j : Nat) : ¬ Race (ops t init es) sync i j := by
  rintro ⟨hij, a, b, ha, hb, hg, hc, hn⟩
  have hj : j < es.length := by
    have := (List.getElem?_eq_some_iff.1 hb).1
    rwa [ops_length h] at this
  -- `r` reads without the lock, `w` is a call of `Send`
  have key : ∀ r w c d s, (ops t init es)[r]? = some c → (ops t init es)[w]? = some d → c = { goroutine := none, reads := true } →
      d.goroutine ≠ none → d.writes = true → At t es r s → s.pc = .drain → r < es.length →
      HappensBefore (ops t init es) sync r w ∨ HappensBefore (ops t init es) sync w r := by
    intro r w c d s hr hw hcr hgd hwd hs hp hrl
    obtain ⟨k, l, x, y, hkl, hl, hx, hcx, hy, hgy, hsy, hafter⟩ := drain_after_end h (by omega) hs hp
    obtain ⟨k', z, hz, ⟨hcz, hhb⟩ | ⟨hcz, hhb⟩⟩ := hq w d hw hgd hwd
    · right
      have hk' : k' ≤ k := by
        rcases Nat.lt_or_ge l k' with hlk | hlk
        · -- after `l` the end stays asked
          exfalso
          obtain ⟨s1, s1', g, e, hs1, _, hop, hst, _⟩ := ops_get h hz
          have hk'l : k' < es.length := by
            have := (List.getElem?_eq_some_iff.1 hz).1
            rwa [ops_length h] at this
          obtain ⟨sl, hsl⟩ := at_of_le h l
          have hal := hafter l sl hkl (Nat.le_refl _) hsl
          have has1 : s1.endAsked = true := by
            apply Classical.byContradiction
            intro hne
            obtain ⟨k2, x2, y2, g2, e2, _, _, _, _, _, hst2, hpx2, hpy2, _⟩ :=
              became h (fun s => !s.endAsked) (m := l) (n := k') (by omega) (by omega) hsl hs1 (by simp [hal]) (by simpa using hne)
            have := (end_mono hst2).1 (by simpa using hpx2)
            simp [this] at hpy2
          rw [hop] at hcz
          cases e with
          | endCall => simp [opOf, has1] at hcz
          | send m => simp only [opOf] at hcz; split at hcz <;> simp at hcz
          | tau => simp only [opOf] at hcz; split at hcz <;> simp at hcz
          | _ => simp [opOf] at hcz
        · exact closes_unique h hz hcz (fun i x h1 h2 hx => hafter i x h1 (by omega) hx)
      exact .trans hhb (.trans (.close (by omega) hz hy hcz hsy) (.program hl hy hr (by simp [hgy, hcr])))
    · left
      obtain ⟨s1, s1', g, e, hs1, _, hop, hst, hs1'⟩ := ops_get h hz
      have hce : s1'.endCompleted = true ∧ z.goroutine = none := by
        rw [hop] at hcz ⊢
        obtain ⟨_, tr⟩ := step_tr hst
        cases tr <;> simp_all [opOf]
        all_goals split at hcz <;> simp_all
      have hrk : r < k' := by
        apply Nat.lt_of_not_le
        intro hle
        have hne : r ≠ k' := by
          rintro rfl
          rw [hr] at hz
          obtain rfl := Option.some.inj hz
          simp [hcr] at hcz
        have hsc : s.endCompleted = false := by rw [(at_inv hs).comp, hp]; rfl
        obtain ⟨k2, x2, y2, g2, e2, _, _, _, _, _, hst2, hpx2, hpy2, _⟩ :=
          became h (fun s => !s.endCompleted) (m := k' + 1) (n := r) (by omega) (by omega) hs1' hs (by simp [hce.1]) (by simp [hsc])
        have := (end_mono hst2).2 (by simpa using hpx2)
        simp [this] at hpy2
      exact .trans (.program hrk hr hz (by simp [hcr, hce.2])) hhb
  rcases ordered_or_drain h sync hij ha hb hg hc with ho | ⟨h1, h2, h3, s, hs, hp⟩ | ⟨h1, h2, h3, s, hs, hp⟩
  · exact hn ho
  · rcases key i j a b s ha hb h1 h2 h3 hs hp (by omega) with hh | hh
    · exact hn hh
    · exact absurd (HB_lt hh) (by omega)
  · rcases key j i b a s hb ha h1 h2 h3 hs hp (by omega) with hh | hh
    · exact absurd (HB_lt hh) (by omega)
    · exact hn hh

end

/-- A call of `Send` while another goroutine ends the sender: whatever the user synchronises, nothing orders the
`append` of the one and the read of the other. -/
theorem C87_concurrent_end_violated (sync : Nat → Nat → Prop) : ∃ es s, History .lfEnded (es.map Prod.snd) s ∧
    es = [(1, .endCall), (0, .send (exMsg b!"x")), (0, .seeEnd), (0, .tau)] ∧ s.crashed = false ∧ Race (ops .lfEnded init es) sync 1 3 := by
  refine ⟨[(1, .endCall), (0, .send (exMsg b!"x")), (0, .seeEnd), (0, .tau)], _, by simp [History, run, step, exMsg_marshal, init]; rfl, rfl, rfl, by decide, ?_⟩
  have hops : ops .lfEnded init [(1, .endCall), (0, .send (exMsg b!"x")), (0, .seeEnd), (0, .tau)] =
      [{ goroutine := some 1, closesEnd := true }, { goroutine := some 0, acquires := true, releases := true, reads := true, writes := true },
       { goroutine := none, seesEnd := true }, { goroutine := none, reads := true }] := by
    simp [ops, opOf, step, exMsg_marshal, init]
  rw [hops]
  refine ⟨_, _, rfl, rfl, by simp, .inl ⟨rfl, .inl rfl⟩, ?_⟩
  have key : ∀ {i j : Nat}, HappensBefore [{ goroutine := some 1, closesEnd := true },
      { goroutine := some 0, acquires := true, releases := true, reads := true, writes := true },
       { goroutine := none, seesEnd := true }, { goroutine := none, reads := true }] sync i j → i = 1 → False := by
    intro i j hh
    induction hh with
    | program hij ha hb hg =>
      rintro rfl
      rename_i j a b
      obtain rfl | rfl : j = 2 ∨ j = 3 := by have := (List.getElem?_eq_some_iff.1 hb).1; simp at this; omega
      all_goals simp at ha hb; subst ha hb; simp at hg
    | mutex hij ha hb _ hg =>
      rintro rfl
      rename_i j a b _
      obtain rfl | rfl : j = 2 ∨ j = 3 := by have := (List.getElem?_eq_some_iff.1 hb).1; simp at this; omega
      all_goals simp at hb; subst hb; simp at hg
    | close hij ha hb hg _ => rintro rfl; simp at ha; subst ha; simp at hg
    | user hij ha hb _ hg _ =>
      rintro rfl
      rename_i j a b _ _
      obtain rfl | rfl : j = 2 ∨ j = 3 := by have := (List.getElem?_eq_some_iff.1 hb).1; simp at this; omega
      all_goals simp at hb; subst hb; simp at hg
    | trans _ _ ih _ => exact ih
  exact fun hh => key hh rfl

/-- A goroutine that sends and then ends the sender: the history meets the hypothesis of `C87_quiet_end_partial`, and has
a write of the queue by the user and reads by `runQueue`, with and without the lock. -/
def quietHistory : List (Nat × Event) :=
  [(0, .send (exMsg b!"x")), (0, .tick), (0, .tau), (0, .connect none), (0, .tau), (0, .tau), (0, .endCall),
   (0, .write 39 none), (0, .tau), (0, .tau), (0, .tau), (0, .seeEnd), (0, .tau), (0, .tau)]

example : (run .lfEnded init (quietHistory.map Prod.snd)).isSome = true := by decide +kernel

example : ops .lfEnded init quietHistory =
    [{ goroutine := some 0, acquires := true, releases := true, reads := true, writes := true }, { goroutine := none }, { goroutine := none },
     { goroutine := none }, { goroutine := none, acquires := true }, { goroutine := none, reads := true },
     { goroutine := some 0, closesEnd := true }, { goroutine := none, reads := true }, { goroutine := none, reads := true, writes := true },
     { goroutine := none, reads := true }, { goroutine := none, reads := true, writes := true, releases := true },
     { goroutine := none, seesEnd := true }, { goroutine := none, reads := true }, { goroutine := none }] := by decide +kernel

example (sync : Nat → Nat → Prop) : ∀ i j, ¬ Race (ops .lfEnded init quietHistory) sync i j := by
  cases h : run .lfEnded init (quietHistory.map Prod.snd) with
  | none => exact absurd h (by decide +kernel)
  | some s =>
    refine fun i j => C87_quiet_end_partial (sf := s) h sync ?_ i j
    have hops : ops .lfEnded init quietHistory =
      [{ goroutine := some 0, acquires := true, releases := true, reads := true, writes := true }, { goroutine := none }, { goroutine := none },
       { goroutine := none }, { goroutine := none, acquires := true }, { goroutine := none, reads := true },
       { goroutine := some 0, closesEnd := true }, { goroutine := none, reads := true }, { goroutine := none, reads := true, writes := true },
       { goroutine := none, reads := true }, { goroutine := none, reads := true, writes := true, releases := true },
       { goroutine := none, seesEnd := true }, { goroutine := none, reads := true }, { goroutine := none }] := by decide +kernel
    rw [hops]
    intro w d hw hg hwr
    have hlt := (List.getElem?_eq_some_iff.1 hw).1
    simp only [List.length_cons, List.length_nil] at hlt
    obtain rfl : w = 0 := by
      rcases w with _ | _ | _ | _ | _ | _ | _ | _ | _ | _ | _ | _ | _ | _ | w
      · rfl
      all_goals first
        | omega
        | (simp at hw; subst hw; simp at hg hwr)
    exact ⟨6, _, rfl, .inl ⟨rfl, .program (by omega) rfl rfl rfl⟩⟩

end Syslog5424
