import Verif.Spec.Stepwise
import Verif.Lemmas.Receiver
import Verif.Props.Parse
/-! # Lemmas: decoding message by message -/
namespace Syslog5424.Recv
open Spec Tok

/-- The decoding loop, with what it delivered before. -/
theorem parseLoop_out (t : Transport) (eof : Bool) (fuel : Nat) (data : Slice) (out : List (MsgImm × Option Err)) :
    parseLoop t eof fuel data out = (parseLoop t eof fuel data []).bind fun x => .ret (x.1, out ++ x.2) := by
  induction fuel generalizing data out with
  | zero => rfl
  | succ fuel ih =>
    unfold parseLoop
    cases parse (some data) (some t) eof with
    | panic => rfl
    | hang => rfl
    | ret x =>
      obtain ⟨m, rest, e⟩ := x
      simp only [Out.ret_bind]
      cases rest with
      | none => simp [Out.pure_eq, Out.bind]
      | some r =>
        simp only
        by_cases h0 : r.len = 0
        · rw [if_pos h0, if_pos h0]; rfl
        · rw [if_neg h0, if_neg h0, ih r (out ++ _), ih r ([] ++ _)]
          cases parseLoop t eof fuel r [] <;> simp [Out.bind]

/-- Enough is enough. -/
theorem parseLoop_fuel (t : Transport) (eof : Bool) (fuel : Nat) : ∀ (fuel' : Nat) (data : Slice) (out : List (MsgImm × Option Err)),
    data.cap < 2 ^ 63 → data.len < fuel → data.len < fuel' → parseLoop t eof fuel data out = parseLoop t eof fuel' data out := by
  induction fuel with
  | zero => intro _ _ _ _ h; omega
  | succ fuel ih =>
    intro fuel' data out hcap h1 h2
    cases fuel' with
    | zero => omega
    | succ fuel' =>
      unfold parseLoop
      cases hp : parse (some data) (some t) eof with
      | panic => rfl
      | hang => rfl
      | ret x =>
        obtain ⟨m, rest, e⟩ := x
        simp only [Out.ret_bind]
        cases rest with
        | none => rfl
        | some r =>
          obtain ⟨g1, ⟨pre, hne, g2⟩, _⟩ := parse_rest hcap hp
          have hpos := List.length_pos_iff.mpr hne
          simp only
          split
          · rfl
          · refine ih fuel' r _ ?_ ?_ ?_
            · simp only [Slice.cap, g1, g2, List.length_append] at hcap ⊢; omega
            · simp only [Slice.len, g2, List.length_append] at h1 ⊢; omega
            · simp only [Slice.len, g2, List.length_append] at h2 ⊢; omega

theorem parseLoop_ne_hang (t : Transport) (eof : Bool) (fuel : Nat) : ∀ (data : Slice) (out : List (MsgImm × Option Err)),
    data.cap < 2 ^ 63 → data.len < fuel → parseLoop t eof fuel data out ≠ .hang := by
  induction fuel with
  | zero => intro _ _ _ h; omega
  | succ fuel ih =>
    intro data out hcap hlt
    unfold parseLoop
    cases hp : parse (some data) (some t) eof with
    | panic => simp
    | hang => exact absurd hp (C09_never_hangs (some data) (some t) eof hcap)
    | ret x =>
      obtain ⟨m, rest, e⟩ := x
      simp only [Out.ret_bind]
      cases rest with
      | none => simp
      | some r =>
        obtain ⟨h1, ⟨pre, hne, h2⟩, _⟩ := parse_rest hcap hp
        have hpos := List.length_pos_iff.mpr hne
        simp only
        split
        · simp
        · refine ih r _ ?_ ?_
          · simp only [Slice.cap, h1, h2, List.length_append] at hcap ⊢; omega
          · simp only [Slice.len, h2, List.length_append] at hlt ⊢; omega

/-- What the rest of the loop of `tokenize` will do: the data that stays, the pairs. -/
def restOf (t : Transport) (w : Work) : Out (Slice × List (MsgImm × Option Err)) :=
  if w.sending.isSome ∧ w.data.len = 0 then .ret (w.data, []) else parseLoop t w.eof (w.data.len + 1) w.data []

theorem restOf_ne_hang {t : Transport} {w : Work} (h : w.data.cap < 2 ^ 63) : restOf t w ≠ .hang := by
  unfold restOf
  split
  · simp
  · exact parseLoop_ne_hang _ _ _ _ _ h (Nat.lt_succ_self _)

theorem restOf_panic {t : Transport} {w : Work} (h : restOf t w = .panic) :
    ¬ (w.sending.isSome ∧ w.data.len = 0) ∧ parseLoop t w.eof (w.data.len + 1) w.data [] = .panic := by
  unfold restOf at h
  split at h
  · cases h
  · rename_i h0; exact ⟨h0, h⟩

/-- `Parse` says that more is needed. -/
theorem restOf_stop {t : Transport} {w : Work} {m : MsgImm} {e : Option Err} (hs : w.sending = none)
    (hp : parse (some w.data) (some t) w.eof = .ret (m, none, e)) : restOf t w = .ret (w.data, []) := by
  unfold restOf
  rw [if_neg (by rw [hs]; simp), parseLoop, hp]
  rfl

theorem restOf_now {t : Transport} {w : Work} (hs : w.sending = none) (hp : parse (some w.data) (some t) w.eof = .panic) :
    restOf t w = .panic := by
  unfold restOf
  rw [if_neg (by rw [hs]; simp), parseLoop, hp]
  rfl

/-- `Parse` returned a pair. -/
theorem restOf_more {t : Transport} {w : Work} {m : MsgImm} {e : Option Err} {r : Slice} (d : Tok.Delivered) (hs : w.sending = none)
    (hcap : w.data.cap < 2 ^ 63) (hp : parse (some w.data) (some t) w.eof = .ret (m, some r, e)) :
    restOf t w = (restOf t { w with data := r, sending := some d }).bind fun x => .ret (x.1, (m, e) :: x.2) := by
  obtain ⟨g1, ⟨pre, hne, g2⟩, _⟩ := parse_rest hcap hp
  have hpos := List.length_pos_iff.mpr hne
  have hc : r.cap < 2 ^ 63 := by simp only [Slice.cap, g1, g2, List.length_append] at hcap ⊢; omega
  have hl : r.len < w.data.len := by simp only [Slice.len, g2, List.length_append]; omega
  unfold restOf
  rw [if_neg (by rw [hs]; simp), parseLoop, hp]
  simp only [Out.ret_bind, Option.isSome_some, true_and]
  by_cases h0 : r.len = 0
  · rw [if_pos h0, if_pos h0]; rfl
  · rw [if_neg h0, if_neg h0, parseLoop_out, parseLoop_fuel t w.eof w.data.len (r.len + 1) r [] hc hl (Nat.lt_succ_self _)]
    cases parseLoop t w.eof (r.len + 1) r [] <;> rfl

/-- The pair was sent. -/
theorem restOf_sent {t : Transport} {w : Work} (h0 : w.data.len ≠ 0) : restOf t { w with sending := none } = restOf t w := by
  unfold restOf
  rw [if_neg (by simp), if_neg (by simp [h0])]

theorem willPanic_loop {t : Transport} {eof : Bool} (fuel : Nat) : ∀ {data : Slice} {out : List (MsgImm × Option Err)},
    parseLoop t eof fuel data out = .panic → WillPanic t eof data := by
  induction fuel with
  | zero => intro _ _ h; simp [parseLoop] at h
  | succ fuel ih =>
    intro data out h
    unfold parseLoop at h
    cases hp : parse (some data) (some t) eof with
    | panic => exact .now hp
    | hang => rw [hp] at h; simp at h
    | ret x =>
      obtain ⟨m, rest, e⟩ := x
      rw [hp] at h
      simp only [Out.ret_bind] at h
      cases rest with
      | none => simp at h
      | some r =>
        simp only at h
        by_cases h0 : r.len = 0
        · rw [if_pos h0] at h; simp at h
        · rw [if_neg h0] at h
          exact .later hp h0 (ih h)

theorem loop_willPanic {t : Transport} {eof : Bool} {data : Slice} (h : WillPanic t eof data) :
    ∀ (fuel : Nat) (out : List (MsgImm × Option Err)), data.cap < 2 ^ 63 → data.len < fuel →
      parseLoop t eof fuel data out = .panic := by
  induction h with
  | now hp =>
    intro fuel out _ hf
    cases fuel with
    | zero => omega
    | succ fuel => rw [parseLoop, hp]; rfl
  | @later data rest m e hp h0 _ ih =>
    intro fuel out hcap hf
    cases fuel with
    | zero => omega
    | succ fuel =>
      obtain ⟨g1, ⟨pre, hne, g2⟩, _⟩ := parse_rest hcap hp
      have hpos := List.length_pos_iff.mpr hne
      rw [parseLoop, hp]
      simp only [Out.ret_bind]
      rw [if_neg h0]
      refine ih fuel _ ?_ ?_
      · simp only [Slice.cap, g1, g2, List.length_append] at hcap ⊢; omega
      · simp only [Slice.len, g2, List.length_append] at hf ⊢; omega

/-- The connection is doomed iff the rest of its loop panics. -/
theorem doomed_iff {t : Transport} {c : SConn} {w : Work} (hw : c.work = some w) (hcap : w.data.cap < 2 ^ 63) :
    Doomed t c ↔ restOf t w = .panic := by
  constructor
  · rintro ⟨w', hw', h1, h2⟩
    rw [hw] at hw'
    cases hw'
    unfold restOf
    rw [if_neg ?_]
    · exact loop_willPanic h2 _ _ hcap (Nat.lt_succ_self _)
    · rintro ⟨h3, h4⟩
      rcases h1 with h1 | h1
      · rw [h1] at h3; cases h3
      · exact h1 h4
  · intro h
    obtain ⟨h1, h2⟩ := restOf_panic h
    refine ⟨w, hw, ?_, willPanic_loop _ h2⟩
    cases hs : w.sending with
    | none => exact Or.inl rfl
    | some d => exact Or.inr fun h0 => h1 ⟨by rw [hs]; rfl, h0⟩

theorem doomed_none {t : Transport} {c : SConn} (hw : c.work = none) : ¬ Doomed t c := by
  rintro ⟨w, h, _⟩
  rw [hw] at h; cases h

end Syslog5424.Recv
