import Verif.Spec.TimeRead
import Verif.Spec.Rfc5424
import Verif.Props.Clock
import Verif.Props.RoundTrip
/-! # C97: the timestamp of a received message is the one that was written -/
namespace Syslog5424
open Spec Time

theorem getyear_iff (s r : Bytes) (y : Nat) : getyear s = some (y, r) ↔ ∃ ds, s = ds ++ r ∧ IsNumber (· = 4) ds y := by
  unfold getyear
  constructor
  · intro h
    split at h
    · simp at h
    next hl =>
    split at h
    · next ha =>
      simp only [Option.some.injEq, Prod.mk.injEq] at h
      refine ⟨s.take 4, by rw [← h.2, List.take_append_drop], by simp; omega, ?_, by rw [← decVal_eq_value]; exact h.1⟩
      rw [← all_isDigit]; exact ha
    · simp at h
  · rintro ⟨ds, rfl, h1, h2, h3⟩
    have h1 : ds.length = 4 := h1
    rw [if_neg (by simp; omega), ← h1, List.take_left, List.drop_left, if_pos ((all_isDigit ds).mpr h2), decVal_eq_value, h3]

theorem takeWhile_stop {p : UInt8 → Bool} {a r : Bytes} (ha : a.all p = true) (hr : ∀ c, r.head? = some c → p c = false) :
    (a ++ r).takeWhile p = a ∧ (a ++ r).dropWhile p = r := by
  induction a with
  | nil =>
    cases r with
    | nil => exact ⟨rfl, rfl⟩
    | cons c r => have := hr c rfl; simp [this]
  | cons c a ih =>
    simp only [List.all_cons, Bool.and_eq_true] at ha
    simp [ha.1, ih ha.2]

/-- The fraction, in front of something that cannot be taken for more of it. -/
theorem getfrac_prefix {f r : Bytes} {n : Nat} (h : IsFraction f n) (hr : ∀ c, r.head? = some c → c = 90 ∨ c = 43 ∨ c = 45) :
    getfrac (f ++ r) = (n, r) := by
  have hnd : ∀ c, r.head? = some c → isDigit c = false := by
    intro c hc
    rcases hr c hc with rfl | rfl | rfl <;> rfl
  rcases h with ⟨rfl, rfl⟩ | ⟨sep, ds, h1, h2, h3, rfl, rfl⟩
  · simp only [List.nil_append]
    unfold getfrac
    split
    · next c d q =>
      rw [if_neg]
      rintro ⟨hc, _⟩
      rcases hr c rfl with rfl | rfl | rfl <;> simp at hc
    · rfl
  · match ds, h2, h3 with
    | d :: q, _, h3 =>
      have hall := (all_isDigit (d :: q)).mpr h3
      obtain ⟨e1, e2⟩ := takeWhile_stop hall hnd
      have hd : isDigit d = true := (isDigit_iff d).mpr (h3 d (by simp))
      unfold getfrac
      simp only [List.cons_append] at e1 e2 ⊢
      rw [if_pos ⟨h1, hd⟩, e1, e2, decVal_eq_value]

theorem getfrac_split (s : Bytes) : ∃ f, s = f ++ (getfrac s).2 ∧ IsFraction f (getfrac s).1 := by
  unfold getfrac
  split
  · next c d r =>
    split
    · next hc =>
      refine ⟨c :: (d :: r).takeWhile isDigit, ?_, .inr ⟨c, (d :: r).takeWhile isDigit, hc.1, ?_, ?_, rfl, ?_⟩⟩
      · simp only [List.cons_append]
        rw [List.takeWhile_append_dropWhile]
      · simp [hc.2]
      · rw [← all_isDigit]; exact List.all_takeWhile
      · simp only [decVal_eq_value]
    · exact ⟨[], rfl, .inl ⟨rfl, rfl⟩⟩
  · exact ⟨[], rfl, .inl ⟨rfl, rfl⟩⟩

theorem getnum2_pair {a b : UInt8} {n : Nat} {r : Bytes} (h : getnum2 [a, b] = some (n, r)) : IsNumber (· = 2) [a, b] n := by
  simp only [getnum2] at h
  split at h
  · next hab =>
    simp only [Bool.and_eq_true] at hab
    simp only [Option.some.injEq, Prod.mk.injEq] at h
    exact ⟨rfl, by simp [← isDigit_iff, hab], by rw [← decVal_eq_value]; exact h.1⟩
  · simp at h

theorem getzone_sign (sg a b c d : UInt8) (r : Bytes) (h m : Nat) (hs : sg ≠ 90) (e1 : getnum2 [a, b] = some (h, []))
    (e2 : getnum2 [c, d] = some (m, [])) (hh : h ≤ 24) (hm : m ≤ 60) :
    getzone (sg :: a :: b :: 58 :: c :: d :: r) =
      if sg = 43 then some ((((h * 60 + m) * 60 : Nat) : Int), r) else if sg = 45 then some (-(((h * 60 + m) * 60 : Nat) : Int), r) else none := by
  unfold getzone
  split
  · next q hq => simp only [List.cons.injEq] at hq; exact absurd hq.1 hs
  · next sg' a' b' c' m1 m2 q _ hq =>
    simp only [List.cons.injEq] at hq
    obtain ⟨rfl, rfl, rfl, rfl, rfl, rfl, rfl⟩ := hq
    rw [if_neg (by simp)]
    simp only [e1, e2]
    rw [if_neg (by omega)]
  · next hq => exact absurd rfl (hq sg a b 58 c d r)

theorem getzone_iff (s r : Bytes) (off : Int) : getzone s = some (off, r) ↔ ∃ z, s = z ++ r ∧ IsOffset z off := by
  constructor
  · intro h
    unfold getzone at h
    split at h
    · next q =>
      simp only [Option.some.injEq, Prod.mk.injEq] at h
      exact ⟨b!"Z", by simp [h.2], .inl ⟨rfl, h.1.symm⟩⟩
    · next sg h1 h2 c m1 m2 q _ =>
      split at h
      · simp at h
      next hc =>
      simp only [ne_eq, Classical.not_not] at hc
      subst hc
      split at h
      · next hr _ mm _ e1 e2 =>
        have k2 := getnum2_pair e1
        have k4 := getnum2_pair e2
        split at h
        · simp at h
        next hb =>
        simp only [not_or, Nat.not_lt] at hb
        split at h
        · next hs =>
          simp only [Option.some.injEq, Prod.mk.injEq] at h
          refine ⟨[sg, h1, h2, 58, m1, m2], by simp [h.2], .inr ⟨sg, [h1, h2], [m1, m2], hr, mm, by simp, k2, k4, by omega, by omega, .inl ⟨hs, h.1.symm⟩⟩⟩
        · split at h
          · next hs =>
            simp only [Option.some.injEq, Prod.mk.injEq] at h
            refine ⟨[sg, h1, h2, 58, m1, m2], by simp [h.2], .inr ⟨sg, [h1, h2], [m1, m2], hr, mm, by simp, k2, k4, by omega, by omega, .inr ⟨hs, h.1.symm⟩⟩⟩
          · simp at h
      · simp at h
    · simp at h
  · rintro ⟨z, rfl, ⟨rfl, rfl⟩ | ⟨sg, hh, mm, h, m, rfl, h1, h2, h3, h4, h5⟩⟩
    · rfl
    · have l1 : hh.length = 2 := h1.1
      have l2 : mm.length = 2 := h2.1
      match hh, mm, l1, l2, h1, h2 with
      | [a, b], [c, d], _, _, h1, h2 =>
        have e1 : getnum2 [a, b] = some (h, []) := by simpa using getnum2_complete (r := []) h1
        have e2 : getnum2 [c, d] = some (m, []) := by simpa using getnum2_complete (r := []) h2
        rcases h5 with ⟨rfl, rfl⟩ | ⟨rfl, rfl⟩
        · exact (getzone_sign 43 a b c d r h m (by decide) e1 e2 h3 h4).trans (if_pos rfl)
        · exact (getzone_sign 45 a b c d r h m (by decide) e1 e2 h3 h4).trans ((if_neg (by decide)).trans (if_pos rfl))

theorem offset_head {z : Bytes} {off : Int} (h : IsOffset z off) : ∃ c q, z = c :: q ∧ (c = 90 ∨ c = 43 ∨ c = 45) := by
  rcases h with ⟨rfl, _⟩ | ⟨sg, hh, mm, h, m, rfl, _, _, _, _, h5⟩
  · exact ⟨90, [], rfl, .inl rfl⟩
  · rcases h5 with ⟨rfl, _⟩ | ⟨rfl, _⟩
    · exact ⟨43, hh ++ b!":" ++ mm, by simp, .inr (.inl rfl)⟩
    · exact ⟨45, hh ++ b!":" ++ mm, by simp, .inr (.inr rfl)⟩

/-- What `time.Parse` accepts, and what it returns. -/
theorem timeParse_iff (s : Bytes) (t : Time) : Time.parse s = some t ↔ TimeReads s t := by
  constructor
  · intro h
    unfold Time.parse at h
    obtain ⟨⟨y, s1⟩, h1, h⟩ := Option.bind_eq_some_iff.mp h
    obtain ⟨s2, h2, h⟩ := Option.bind_eq_some_iff.mp h
    obtain ⟨⟨mo, s3⟩, h3, h⟩ := Option.bind_eq_some_iff.mp h
    dsimp only at h
    split at h
    · simp at h
    next hmo =>
    obtain ⟨s4, h4, h⟩ := Option.bind_eq_some_iff.mp h
    obtain ⟨⟨d, s5⟩, h5, h⟩ := Option.bind_eq_some_iff.mp h
    obtain ⟨s6, h6, h⟩ := Option.bind_eq_some_iff.mp h
    obtain ⟨⟨hr, s7⟩, h7, h⟩ := Option.bind_eq_some_iff.mp h
    dsimp only at h
    split at h
    · simp at h
    next hhr =>
    obtain ⟨s8, h8, h⟩ := Option.bind_eq_some_iff.mp h
    obtain ⟨⟨mi, s9⟩, h9, h⟩ := Option.bind_eq_some_iff.mp h
    dsimp only at h
    split at h
    · simp at h
    next hmi =>
    obtain ⟨s10, h10, h⟩ := Option.bind_eq_some_iff.mp h
    obtain ⟨⟨sec, s11⟩, h11, h⟩ := Option.bind_eq_some_iff.mp h
    dsimp only at h
    split at h
    · simp at h
    next hsec =>
    obtain ⟨⟨off, s12⟩, h12, h⟩ := Option.bind_eq_some_iff.mp h
    dsimp only at h
    split at h
    · simp at h
    next hend =>
    split at h
    · simp at h
    next hday =>
    simp only [Option.some.injEq] at h
    subst h
    simp only [ne_eq, Classical.not_not] at hend
    subst hend
    obtain ⟨yy, rfl, ny⟩ := (getyear_iff _ _ _).mp h1
    have := skipByte_sound h2; subst this
    obtain ⟨mm0, rfl, nmo⟩ := getnum2_sound h3
    have := skipByte_sound h4; subst this
    obtain ⟨dd, rfl, nd⟩ := getnum2_sound h5
    have := skipByte_sound h6; subst this
    obtain ⟨hh, rfl, nh⟩ := getnum12_sound h7
    have := skipByte_sound h8; subst this
    obtain ⟨mm, rfl, nmi⟩ := getnum2_sound h9
    have := skipByte_sound h10; subst this
    obtain ⟨ss, rfl, nss⟩ := getnum2_sound h11
    obtain ⟨f, hf, nf⟩ := getfrac_split s11
    obtain ⟨z, hz, nz⟩ := (getzone_iff _ _ _).mp h12
    have hmd : daysIn mo (y : Int) = monthDays mo y := by rw [daysIn_eq (by omega)]; simp
    refine ⟨yy, mm0, dd, hh, mm, ss, f, z, y, ?_, ny, rfl, nmo, ?_, ?_, nd, ?_, ?_, nh, ?_, nmi, ?_, nss, ?_, nf, nz⟩
    · conv => lhs; rw [hf, hz]
      simp
    all_goals (simp only [not_or, Nat.not_lt] at hmo hday; simp only; omega)
  · rintro ⟨yy, mo, dd, hh, mm, ss, f, z, year, rfl, ny, ey, nmo, hmo1, hmo2, nd, hd1, hd2, nh, hh1, nmi, hmi, nss, hss, nf, nz⟩
    obtain ⟨c, q, hc, hcs⟩ := offset_head nz
    have e1 : getfrac (f ++ z) = (t.nsec, z) := getfrac_prefix nf (by intro c' hc'; rw [hc] at hc'; simp at hc'; subst hc'; exact hcs)
    have e2 : getzone z = some (t.off, []) := (getzone_iff _ _ _).mpr ⟨z, by simp, nz⟩
    have hmd : daysIn t.month (year : Int) = monthDays t.month year := by rw [daysIn_eq (by omega)]; simp
    have g1 : getyear (yy ++ (45 :: (mo ++ (45 :: (dd ++ (84 :: (hh ++ (58 :: (mm ++ (58 :: (ss ++ (f ++ z)))))))))))) = some (year, _) :=
      (getyear_iff _ _ _).mpr ⟨yy, rfl, ny⟩
    unfold Time.parse
    simp only [List.append_assoc, List.cons_append, List.nil_append]
    rw [g1]
    simp only [Option.bind_eq_bind, Option.bind_some, skipByte_cons]
    rw [getnum2_complete nmo]
    simp only [Option.bind_some]
    rw [if_neg (by omega)]
    simp only [Option.bind_some, skipByte_cons]
    rw [getnum2_complete nd]
    simp only [Option.bind_some, skipByte_cons]
    rw [getnum12_complete nh (by simp; decide)]
    simp only [Option.bind_some]
    rw [if_neg (by omega)]
    simp only [Option.bind_some, skipByte_cons]
    rw [getnum2_complete nmi]
    simp only [Option.bind_some]
    rw [if_neg (by omega)]
    simp only [Option.bind_some, skipByte_cons]
    rw [getnum2_complete nss]
    simp only [Option.bind_some]
    rw [if_neg (by omega)]
    simp only [e1, e2, Option.bind_some]
    rw [if_neg (by simp), if_neg (by rw [hmd]; omega), ← ey]

/-- A text reads as one time at most. -/
theorem timeReads_unique {s : Bytes} {t u : Time} (h : TimeReads s t) (h' : TimeReads s u) : t = u := by
  have a := (timeParse_iff s t).mpr h
  have b := (timeParse_iff s u).mpr h'
  rw [a] at b
  exact Option.some.inj b

/-- C97: `TimeStamp` of a received message, with any transport and with or without an error, is the time its second field
reads as, and the zero time if it reads as none. -/
theorem C97_timestamp (data : Option Slice) (tr : Option Transport) (atEOF : Bool) (p : MsgImm)
    (rest : Option Slice) (e : Option Err) (hcap : (Slice.ofNil data).cap < 2 ^ 63)
    (h : parse data tr atEOF = .ret (p, rest, e)) (hm : p ≠ MsgImm.zero) :
    ∃ pri stamp tail, p.string = pri ++ b!" " ++ stamp ++ b!" " ++ tail ∧ (32 : UInt8) ∉ pri ∧ (32 : UInt8) ∉ stamp ∧
      (∀ t, TimeReads stamp t → p.timeStamp = .ret t) ∧
      ((¬ ∃ t, TimeReads stamp t) → p.timeStamp = .ret ⟨1, 1, 1, 0, 0, 0, 0, 0⟩) := by
  obtain ⟨fs, xs, o, hv⟩ := parse_view hcap h hm
  obtain ⟨a, b, c, d, e, f, rfl, _, hf0, _⟩ := hv.fields
  obtain ⟨more, tl, _, hb⟩ := hv.index_take
  have hr := hv.raw
  have hs : ∃ tail, p.string = a ++ b!" " ++ b ++ b!" " ++ tail := by
    show ∃ tail, p.buffer.vis = _
    rw [hb]
    simp only [headerText, List.flatMap_cons, List.append_assoc, List.cons_append, List.nil_append]
    exact ⟨_, rfl⟩
  obtain ⟨tail, hs⟩ := hs
  refine ⟨a, b, tail, hs, (hr a (by simp)).2, (hr b (by simp)).2, ?_, ?_⟩
  · intro t ht
    unfold MsgImm.timeStamp
    rw [hf0]
    simp only [Out.ret_bind, Out.pure_eq]
    rw [(timeParse_iff b t).mpr ht]
    rfl
  · intro hn
    unfold MsgImm.timeStamp
    rw [hf0]
    simp only [Out.ret_bind, Out.pure_eq]
    cases hp : Time.parse b with
    | none => rfl
    | some t => exact absurd ⟨t, (timeParse_iff b t).mp hp⟩ hn

/-- C97: every TIMESTAMP of the RFC is read, as the time it says. -/
theorem C97_rfc (year month day hour minute second us : Nat) (off : Int) (s : Bytes)
    (h : Spec.Timestamp year month day hour minute second us off s) :
    TimeReads s ⟨year, month, day, hour, minute, second, us * 1000, off * 60⟩ := by
  obtain ⟨y, mo, d, hh, mi, se, fr, z, rfl, h1, h2, h3, h4, h5, h6, h7, h8, h9, h10, h11, h12, h13, h14, h15⟩ := h
  refine ⟨y, mo, d, hh, mi, se, fr, z, year, rfl, h1, rfl, h2, h3, h4, h5, h6, h7, ⟨.inr h8.1, h8.2⟩, by simp only; omega, h10, by simp only; omega, h12,
    by simp only; omega, ?_, ?_⟩
  · rcases h14 with ⟨rfl, rfl⟩ | ⟨f, rfl, g1, g2, g3, rfl⟩
    · exact .inl ⟨rfl, rfl⟩
    · refine .inr ⟨46, f, .inl rfl, by intro hf; subst hf; simp at g1, g3, rfl, ?_⟩
      rw [List.take_of_length_le (by omega)]
      have : 9 - f.length = (6 - f.length) + 3 := by omega
      rw [this, Nat.pow_add, ← Nat.mul_assoc]
  · rcases h15 with ⟨rfl, rfl⟩ | ⟨sg, a, b, aa, bb, rfl, g1, g2, g3, g4, g5⟩
    · exact .inl ⟨rfl, rfl⟩
    · refine .inr ⟨sg, aa, bb, a, b, rfl, g1, g2, by omega, by omega, ?_⟩
      rcases g5 with ⟨rfl, rfl⟩ | ⟨rfl, rfl⟩
      · exact .inl ⟨rfl, by simp only; omega⟩
      · exact .inr ⟨rfl, by simp only; omega⟩

/-- Hence the time of a received message that has a TIMESTAMP of the RFC is that one. -/
theorem C97_received (data : Option Slice) (tr : Option Transport) (atEOF : Bool) (p : MsgImm)
    (rest : Option Slice) (e : Option Err) (hcap : (Slice.ofNil data).cap < 2 ^ 63)
    (h : parse data tr atEOF = .ret (p, rest, e)) (hm : p ≠ MsgImm.zero)
    (year month day hour minute second us : Nat) (off : Int) (pri stamp tail : Bytes) (hpri : (32 : UInt8) ∉ pri)
    (hst : Spec.Timestamp year month day hour minute second us off stamp) (hsp : (32 : UInt8) ∉ stamp)
    (hs : p.string = pri ++ b!" " ++ stamp ++ b!" " ++ tail) :
    p.timeStamp = .ret ⟨year, month, day, hour, minute, second, us * 1000, off * 60⟩ := by
  obtain ⟨pri', stamp', tail', h1, h2, h3, h4, _⟩ := C97_timestamp data tr atEOF p rest e hcap h hm
  rw [hs] at h1
  simp only [List.append_assoc, List.cons_append, List.nil_append] at h1
  obtain ⟨_, e2⟩ := firstByte h1 hpri h2
  obtain ⟨rfl, _⟩ := firstByte e2 hsp h3
  exact h4 _ (C97_rfc _ _ _ _ _ _ _ _ _ hst)

/-- A received message of that kind, and one without timestamp. -/
example : (match parse (some ⟨b!"<13>1 2003-10-11T22:14:15.003Z host app - - - hi", []⟩) none true with
    | .ret (p, _, none) => p.timeStamp
    | _ => .panic) = .ret ⟨2003, 10, 11, 22, 14, 15, 3000000, 0⟩ := by decide +kernel
example : (match parse (some ⟨b!"<13>1 - host app - - - hi", []⟩) none true with
    | .ret (p, _, none) => p.timeStamp
    | _ => .panic) = .ret ⟨1, 1, 1, 0, 0, 0, 0, 0⟩ := by decide +kernel

theorem rfc_no_comma {year month day hour minute second us : Nat} {off : Int} {s : Bytes}
    (h : Spec.Timestamp year month day hour minute second us off s) : (44 : UInt8) ∉ s := by
  obtain ⟨y, mo, d, hh, mi, se, fr, z, rfl, h1, h2, h3, h4, h5, h6, h7, h8, h9, h10, h11, h12, h13, h14, h15⟩ := h
  have dig : ∀ {n v : Nat} {x : Bytes}, DigitsOf n v x → (44 : UInt8) ∉ x := by
    intro n v x hx hm
    exact absurd (hx.2.1 44 hm) (by decide)
  have hfr : (44 : UInt8) ∉ fr := by
    rcases h14 with ⟨rfl, _⟩ | ⟨f, rfl, _, _, g3, _⟩
    · simp
    · intro hm
      rcases List.mem_cons.mp hm with h | h
      · exact absurd h (by decide)
      · exact absurd (g3 44 h) (by decide)
  have hz : (44 : UInt8) ∉ z := by
    rcases h15 with ⟨rfl, _⟩ | ⟨sg, a, b, aa, bb, rfl, g1, g2, g3, g4, g5⟩
    · decide
    · have a1 := dig g1
      have a2 := dig g2
      have a3 : (44 : UInt8) ≠ sg := by rcases g5 with ⟨rfl, _⟩ | ⟨rfl, _⟩ <;> decide
      simp [a1, a2, a3]
  have a1 := dig h1
  have a2 := dig h2
  have a3 := dig h5
  have a4 := dig h8
  have a5 := dig h10
  have a6 := dig h12
  simp [a1, a2, a3, a4, a5, a6, hfr, hz]

/-- **C97 fails**: texts that are no TIMESTAMP of the RFC are read too. Every time with a fraction can be written with a
comma, which the RFC does not allow, and is read all the same. (Further: an hour of one digit, more than six digits of
fraction, an offset of `24:60`; `C97_timestamp` with `TimeReads` has them all.) -/
theorem C97_lenient_violated :
    (∀ s t, (44 : UInt8) ∈ s → TimeReads s t →
      ¬ ∃ year month day hour minute second us off, Spec.Timestamp year month day hour minute second us off s) ∧
    (∀ pre f z t, TimeReads (pre ++ b!"." ++ f ++ z) t → (∀ c ∈ f, IsDigit c) → f ≠ [] → (46 : UInt8) ∉ z →
      TimeReads (pre ++ b!"," ++ f ++ z) t) ∧
    TimeReads b!"2003-10-11T2:14:15,1234567-24:60" ⟨2003, 10, 11, 2, 14, 15, 123456700, -90000⟩ := by
  refine ⟨?_, ?_, ?_⟩
  · rintro s t hc _ ⟨_, _, _, _, _, _, _, _, h⟩
    exact rfc_no_comma h hc
  · intro pre f z t h hf hne hz
    obtain ⟨yy, mo, dd, hh, mm, ss, fr, z', year, he, ny, ey, nmo, hmo1, hmo2, nd, hd1, hd2, nh, hh1, nmi, hmi, nss, hss, nf, nz⟩ := h
    have nodot : ∀ {P : Nat → Prop} {n : Nat} {x : Bytes}, IsNumber P x n → (46 : UInt8) ∉ x := by
      intro P n x hx hm
      exact absurd (hx.2.1 46 hm) (by decide)
    have hz' : (46 : UInt8) ∉ z' := by
      rcases nz with ⟨rfl, _⟩ | ⟨sg, aa, bb, a, b, rfl, g1, g2, g3, g4, g5⟩
      · decide
      · have a1 := nodot g1
        have a2 := nodot g2
        have a3 : (46 : UInt8) ≠ sg := by rcases g5 with ⟨rfl, _⟩ | ⟨rfl, _⟩ <;> decide
        simp [a1, a2, a3]
    have hfdot : (46 : UInt8) ∉ f := fun hm => absurd (hf 46 hm) (by decide)
    have hq : (46 : UInt8) ∉ yy ++ b!"-" ++ mo ++ b!"-" ++ dd ++ b!"T" ++ hh ++ b!":" ++ mm ++ b!":" ++ ss := by
      simp [nodot ny, nodot nmo, nodot nd, nodot nh, nodot nmi, nodot nss]
    rcases nf with ⟨rfl, e0⟩ | ⟨sep, ds, g1, g2, g3, rfl, g5⟩
    · have hm : (46 : UInt8) ∈ pre ++ b!"." ++ f ++ z := by simp
      rw [he] at hm
      simp only [List.append_nil] at hm
      rcases List.mem_append.mp hm with h | h
      · exact absurd h hq
      · exact absurd h hz'
    · have hdd : (46 : UInt8) ∉ ds := fun hm => absurd (g3 46 hm) (by decide)
      rcases g1 with rfl | rfl
      · -- the only dot is this one
        have e := he
        have e' : pre ++ 46 :: (f ++ z) = (yy ++ b!"-" ++ mo ++ b!"-" ++ dd ++ b!"T" ++ hh ++ b!":" ++ mm ++ b!":" ++ ss) ++ 46 :: (ds ++ z') := by
          simpa using e
        have hpre : (46 : UInt8) ∉ pre := by
          intro hm
          have c1 : (pre ++ 46 :: (f ++ z)).count 46 = pre.count 46 + 1 := by
            simp [List.count_append, List.count_eq_zero.mpr hfdot, List.count_eq_zero.mpr hz]
          have c2 : ((yy ++ b!"-" ++ mo ++ b!"-" ++ dd ++ b!"T" ++ hh ++ b!":" ++ mm ++ b!":" ++ ss) ++ 46 :: (ds ++ z')).count 46 = 1 := by
            rw [List.count_append, List.count_eq_zero.mpr hq]
            simp [List.count_append, List.count_eq_zero.mpr hdd, List.count_eq_zero.mpr hz']
          rw [e'] at c1
          have := List.count_pos_iff.mpr hm
          omega
        obtain ⟨rfl, e2⟩ := firstByte e' hpre hq
        refine ⟨yy, mo, dd, hh, mm, ss, 44 :: ds, z', year, ?_, ny, ey, nmo, hmo1, hmo2, nd, hd1, hd2, nh, hh1, nmi, hmi, nss, hss,
          .inr ⟨44, ds, .inr rfl, g2, g3, rfl, g5⟩, nz⟩
        have : f ++ z = ds ++ z' := e2
        simp [this]
      · have hm : (46 : UInt8) ∈ pre ++ b!"." ++ f ++ z := by simp
        rw [he] at hm
        rcases List.mem_append.mp hm with h | h
        · rcases List.mem_append.mp h with h | h
          · exact absurd h hq
          · rcases List.mem_cons.mp h with h | h
            · exact absurd h (by decide)
            · exact absurd h hdd
        · exact absurd h hz'
  · exact (timeParse_iff _ _).mp (by decide +kernel)

end Syslog5424
