import Verif.Spec.Resync
import Verif.Props.CutLines
import Verif.Props.ReconnectOne
/-! # Property C116: a line stream resynchronises -/
namespace Syslog5424
open Spec Tok

/-- What a decoder takes from the bytes that have arrived, whatever the reads were: each message from its beginning to some byte that has arrived. -/
inductive Chain (c : UInt8) : Bytes → List (Bytes × Bytes) → Bytes → Prop
  | nil {b : Bytes} : Chain c b [] b
  | cons {b more p text suffix rest : Bytes} {ps : List (Bytes × Bytes)} : LineReady c b p text suffix →
      Chain c (suffix ++ more) ps rest → Chain c (b ++ more) ((p, text) :: ps) rest

theorem Chain.append {c : UInt8} {b r more rest : Bytes} {ps qs : List (Bytes × Bytes)} (h : DecodesLines c b ps r)
    (h' : Chain c (r ++ more) qs rest) : Chain c (b ++ more) (ps ++ qs) rest := by
  induction h with
  | stop _ => exact h'
  | take h _ ih => exact .cons h (ih h')

theorem chain_of_reads {c : UInt8} {kept rest : Bytes} {datas : List Bytes} {ps : List (Bytes × Bytes)} (h : DecodesReads c kept datas ps rest) :
    Chain c (kept ++ datas.flatten) ps rest := by
  induction h with
  | nil => rw [List.flatten_nil, List.append_nil]; exact .nil
  | empty _ ih => simpa using ih
  | read _ _ h2 _ ih =>
    rw [List.flatten_cons, ← List.append_assoc]
    exact .append h2 ih

theorem decodesLines_stuck {c : UInt8} {b r : Bytes} {ps : List (Bytes × Bytes)} (h : DecodesLines c b ps r) : ¬ ∃ p text suffix, LineReady c r p text suffix := by
  induction h with
  | stop h => exact h
  | take _ _ ih => exact ih

theorem decodesReads_stuck {c : UInt8} {kept rest : Bytes} {datas : List Bytes} {ps : List (Bytes × Bytes)} (h : DecodesReads c kept datas ps rest)
    (h0 : ¬ ∃ p text suffix, LineReady c kept p text suffix) : ¬ ∃ p text suffix, LineReady c rest p text suffix := by
  induction h with
  | nil => exact h0
  | empty _ ih => exact ih h0
  | read _ _ h2 _ ih => exact ih (decodesLines_stuck h2)

/-- The bytes of a line. -/
def endedLine (c : UInt8) (l : List Bytes × Bytes) : Bytes := lineText l ++ [c]

theorem line_clean {c : UInt8} (hc : c = 10 ∨ c = 0) {l : List Bytes × Bytes} (h : Line c l.1 l.2) : c ∉ lineText l := by
  intro hm
  have hcs : c ≠ SP := by rcases hc with rfl | rfl <;> decide
  simp only [lineText, List.mem_append] at hm
  rcases hm with (h' | h') | h'
  · exact notin_headerText h.raw hcs h'
  · rcases hc with rfl | rfl <;> revert h' <;> decide
  · exact h.text h'

/-- Up to the first terminator. -/
theorem first_end {c : UInt8} {g r x y : Bytes} (hg : c ∉ g) (h : x ++ c :: y <+: g ++ c :: r) :
    (x = g ∧ y <+: r) ∨ ∃ x', x = g ++ c :: x' ∧ x' ++ c :: y <+: r := by
  induction g generalizing x with
  | nil =>
    cases x with
    | nil => obtain ⟨z, hz⟩ := h; exact Or.inl ⟨rfl, z, by simpa using hz⟩
    | cons a x =>
      obtain ⟨z, hz⟩ := h
      simp only [List.cons_append, List.nil_append, List.cons.injEq] at hz
      exact Or.inr ⟨x, by rw [hz.1]; rfl, z, hz.2⟩
  | cons a g ih =>
    simp only [List.mem_cons, not_or] at hg
    cases x with
    | nil =>
      obtain ⟨z, hz⟩ := h
      simp only [List.nil_append, List.cons_append, List.cons.injEq] at hz
      exact absurd hz.1 hg.1
    | cons b x =>
      obtain ⟨z, hz⟩ := h
      simp only [List.cons_append, List.cons.injEq] at hz
      rcases ih hg.2 ⟨z, hz.2⟩ with ⟨rfl, h2⟩ | ⟨x', rfl, h2⟩
      · exact Or.inl ⟨by rw [hz.1], h2⟩
      · exact Or.inr ⟨x', by rw [hz.1]; rfl, h2⟩

/-- A terminator is the end of a line. -/
theorem ends_at_line {c : UInt8} (hc : c = 10 ∨ c = 0) (ls : List (List Bytes × Bytes)) : ∀ (g x y : Bytes), c ∉ g → (∀ l ∈ ls, Line c l.1 l.2) →
    x ++ c :: y <+: g ++ c :: ls.flatMap (endedLine c) →
    ∃ j, j ≤ ls.length ∧ x ++ [c] = g ++ c :: (ls.take j).flatMap (endedLine c) ∧ y <+: (ls.drop j).flatMap (endedLine c) := by
  induction ls with
  | nil =>
    intro g x y hg _ h
    rcases first_end hg h with ⟨rfl, h2⟩ | ⟨x', rfl, h2⟩
    · exact ⟨0, by simp, by simp, by simpa using h2⟩
    · have := h2.length_le; simp at this
  | cons l ls ih =>
    intro g x y hg hls h
    rcases first_end hg h with ⟨rfl, h2⟩ | ⟨x', rfl, h2⟩
    · exact ⟨0, by simp, by simp, by simpa using h2⟩
    · rw [List.flatMap_cons, endedLine, List.append_assoc, List.singleton_append] at h2
      obtain ⟨j, h3, h4, h5⟩ := ih _ _ _ (line_clean hc (hls l (by simp))) (fun l hl => hls l (by simp [hl])) h2
      refine ⟨j + 1, by simpa using h3, ?_, by simpa using h5⟩
      rw [List.append_assoc, List.cons_append, h4, List.take_succ_cons, List.flatMap_cons, endedLine]
      simp

/-- From a boundary on, a line is taken as it is. -/
theorem ready_line {t : Transport} {c : UInt8} (ht : terminator t = some c) {ls : List (List Bytes × Bytes)} (hls : ∀ l ∈ ls, Line c l.1 l.2)
    {b p text suffix : Bytes} (h : LineReady c b p text suffix) (hb : b <+: ls.flatMap (endedLine c)) :
    ∃ l r, ls = l :: r ∧ p = lineText l ∧ text = l.2 ∧ suffix <+: r.flatMap (endedLine c) := by
  have hbe : b = p ++ c :: suffix := by obtain ⟨_, _, _, _, _, h⟩ := h; simpa using h
  cases ls with
  | nil => rw [hbe] at hb; have := hb.length_le; simp at this
  | cons l r =>
    have hl := hls l (by simp)
    have h1 : lineText l ++ [c] <+: b := by
      rw [List.flatMap_cons, endedLine, List.append_assoc, List.singleton_append] at hb
      rcases first_end (line_clean (term_or ht) hl) (hbe ▸ hb) with ⟨rfl, _⟩ | ⟨x', rfl, _⟩
      · rw [hbe]; exact ⟨suffix, by simp⟩
      · rw [hbe]; exact ⟨x' ++ c :: suffix, by simp⟩
    obtain ⟨suf, hs⟩ := h1
    obtain ⟨m, e, h2, _⟩ := line_conveys (term_of ht) hl suf [] false
    obtain ⟨m', h3, _⟩ := parse_ready ht ⟨b, []⟩ false h
    rw [hs, h3] at h2
    simp only [Out.ret.injEq, Prod.mk.injEq, Option.some.injEq, Slice.mk.injEq, and_true] at h2
    obtain ⟨_, rfl, _⟩ := h2
    have e1 : p = lineText l := by
      rw [hbe] at hs
      have : lineText l ++ c :: suffix = p ++ c :: suffix := by simpa using hs
      exact (List.append_cancel_right this).symm
    have hL : LineReady c b (lineText l) l.2 suffix := by
      refine ⟨l.1, [], SP, ?_, hl.text, hs.symm⟩
      have := Frame.dashText (t := l.2 ++ [c] ++ suffix) hl.six (fun f hf => (hl.raw f hf).1)
      rw [← hs]
      simpa [lineText] using this
    refine ⟨l, r, rfl, e1, (h.unique hL (term_or ht)).2.1, ?_⟩
    rw [← hs, List.flatMap_cons, endedLine] at hb
    exact (List.prefix_append_right_inj _).mp hb

theorem Chain.lines {t : Transport} {c : UInt8} (ht : terminator t = some c) {B rest : Bytes} {ps : List (Bytes × Bytes)} (h : Chain c B ps rest) :
    ∀ {ls : List (List Bytes × Bytes)}, (∀ l ∈ ls, Line c l.1 l.2) → B <+: ls.flatMap (endedLine c) →
    ps.length ≤ ls.length ∧ ps = (ls.take ps.length).map (fun l => (lineText l, l.2)) ∧ rest <+: (ls.drop ps.length).flatMap (endedLine c) ∧
    (ls.take ps.length).flatMap (endedLine c) ++ rest = B := by
  induction h with
  | nil => intro ls _ hB; exact ⟨by simp, by simp, by simpa using hB, by simp⟩
  | @cons b more p text suffix rest ps h _ ih =>
    intro ls hls hB
    obtain ⟨l, r, rfl, rfl, rfl, h1⟩ := ready_line ht hls h ((List.prefix_append _ _).trans hB)
    have hb : b = lineText l ++ [c] ++ suffix := by obtain ⟨_, _, _, _, _, h⟩ := h; exact h
    have hB' : suffix ++ more <+: r.flatMap (endedLine c) := by
      rw [hb, List.append_assoc, List.flatMap_cons, endedLine] at hB
      exact (List.prefix_append_right_inj _).mp hB
    obtain ⟨h2, h3, h4, h5⟩ := ih (fun l hl => hls l (by simp [hl])) hB'
    refine ⟨by simpa using h2, ?_, by simpa using h4, ?_⟩
    · rw [List.length_cons, List.take_succ_cons, List.map_cons, ← h3]
    · rw [List.length_cons, List.take_succ_cons, List.flatMap_cons, List.append_assoc, h5, hb, endedLine]
      simp

/-- With the rest of a line first. -/
theorem Chain.cut {t : Transport} {c : UInt8} (ht : terminator t = some c) {B rest g p text : Bytes} {ps : List (Bytes × Bytes)}
    (h : Chain c B ((p, text) :: ps) rest) {ls : List (List Bytes × Bytes)} (hls : ∀ l ∈ ls, Line c l.1 l.2) (hg : c ∉ g)
    (hB : B <+: g ++ c :: ls.flatMap (endedLine c)) :
    ∃ j, j + ps.length ≤ ls.length ∧ p ++ [c] = g ++ c :: (ls.take j).flatMap (endedLine c) ∧
      ps = ((ls.drop j).take ps.length).map (fun l => (lineText l, l.2)) ∧ rest <+: (ls.drop (j + ps.length)).flatMap (endedLine c) ∧
      g ++ c :: (ls.take (j + ps.length)).flatMap (endedLine c) ++ rest = B := by
  cases h with
  | @cons b more _ _ suffix _ _ h h' =>
    have hb : b = p ++ c :: suffix := by obtain ⟨_, _, _, _, _, h⟩ := h; simpa using h
    obtain ⟨j, h1, h2, h3⟩ := ends_at_line (term_or ht) ls g p (suffix ++ more) hg hls (by rw [hb] at hB; simpa using hB)
    obtain ⟨h4, h5, h6, h7⟩ := h'.lines ht (fun l hl => hls l (List.mem_of_mem_drop hl)) h3
    rw [List.length_drop] at h4
    refine ⟨j, by omega, h2, h5, by rwa [List.drop_drop] at h6, ?_⟩
    rw [hb, List.take_add, List.flatMap_append]
    have : ∀ a : Bytes, p ++ c :: suffix ++ a = (p ++ [c]) ++ (suffix ++ a) := by intro a; simp
    rw [this, h2, ← h7]
    simp

/-! ## how far the first message reaches -/

theorem headerText_spaces {fs : List Bytes} (h : ∀ f ∈ fs, RawField f) : (headerText fs).count 32 = fs.length := by
  induction fs with
  | nil => rfl
  | cons f fs ih =>
    have h1 : f.count 32 = 0 := List.count_eq_zero.mpr (h f (by simp)).2
    show ((f ++ b!" ") ++ headerText fs).count 32 = _
    rw [List.count_append, List.count_append, ih (fun f hf => h f (by simp [hf])), h1]
    have : (b!" ").count 32 = 1 := by decide
    rw [this, List.length_cons]; omega

theorem element_has_bracket {x : Bytes} (h : Element x) : (93 : UInt8) ∈ x := by
  cases h <;> simp

/-- Without brackets, a text begins at the latest behind the seventh space. -/
theorem text_begins {c : UInt8} {b p text suffix : Bytes} (h : LineReady c b p text suffix) (hn : (93 : UInt8) ∉ b) :
    ∃ pre, p = pre ++ text ∧ pre.dropLast.count 32 = 6 := by
  obtain ⟨fs, xs, y, hF, hc, hb⟩ := h
  have key : ∀ (pre : Bytes) (a : UInt8), b = pre ++ [a] ++ (text ++ [c] ++ suffix) → pre.count 32 = 6 →
      ∃ pre, p = pre ++ text ∧ pre.dropLast.count 32 = 6 := by
    intro pre a h1 h2
    refine ⟨pre ++ [a], ?_, by simpa using h2⟩
    rw [hb] at h1
    have : p ++ ([c] ++ suffix) = (pre ++ [a] ++ text) ++ ([c] ++ suffix) := by simpa using h1
    exact List.append_cancel_right this
  generalize ho : some (y :: (text ++ [c] ++ suffix)) = o at hF
  cases hF with
  | dash => cases ho
  | @dashText fs' t' h6 hr =>
    simp only [List.cons_append, List.nil_append, Option.some.injEq, List.cons.injEq] at ho
    refine key (headerText fs ++ b!"-") 32 ?_ ?_
    · rw [show text ++ [c] ++ suffix = t' from by simpa using ho.2]; simp
    · rw [List.count_append, headerText_spaces hr, h6]; decide
  | @sd fs' xs' o' tail h6 hr hi hs =>
    rw [List.mem_append, not_or] at hn
    have htail : o = some tail := by
      cases hi with
      | stop h => exact absurd (element_has_bracket h) hn.2
      | quiet _ => rfl
      | more h _ => exact absurd (List.mem_append_left _ (element_has_bracket h)) hn.2
    rw [htail] at ho
    simp only [Option.some.injEq] at ho
    refine key (headerText fs) y ?_ ?_
    · rw [← ho]; simp
    · rw [headerText_spaces hr, h6]

theorem line_spaces {c : UInt8} {l : List Bytes × Bytes} (h : Line c l.1 l.2) : 7 ≤ (lineText l).count 32 := by
  rw [lineText, List.count_append, List.count_append, headerText_spaces (fun f hf => (h.raw f hf).1), h.six]
  have : (b!"- ").count 32 = 1 := by decide
  omega

/-- Without brackets, the first message ends at the latest with the first line behind the cut one. -/
theorem cut_reach {c : UInt8} {b p text suffix g : Bytes} {l : List Bytes × Bytes} (hl : Line c l.1 l.2) (h : LineReady c b p text suffix)
    (hn : (93 : UInt8) ∉ b) (hp : g ++ c :: lineText l ++ [c] <+: p) : False := by
  obtain ⟨pre, h1, h2⟩ := text_begins h hn
  have hc : c ∉ text := by obtain ⟨_, _, _, _, h, _⟩ := h; exact h
  have hle : (g ++ c :: lineText l).length < pre.length := by
    refine Nat.lt_of_not_le fun hle => hc ?_
    have h3 : (p.drop pre.length) = text := by rw [h1, List.drop_left]
    obtain ⟨r, hr⟩ := hp
    rw [← h3, ← hr, List.append_assoc, List.drop_append_of_le_length hle]
    simp
  have h4 : g ++ c :: lineText l <+: pre.dropLast := by
    have h5 : g ++ c :: lineText l <+: p := (List.prefix_append _ _).trans hp
    have h6 : pre.dropLast <+: p := (List.dropLast_prefix _).trans ⟨text, h1.symm⟩
    refine List.prefix_of_prefix_length_le h5 h6 ?_
    rw [List.length_dropLast]; omega
  have h7 : 7 ≤ pre.dropLast.count 32 := by
    refine Nat.le_trans (line_spaces hl) ?_
    obtain ⟨z, hz⟩ := h4
    rw [← hz, List.count_append, List.count_append, List.count_cons]
    omega
  omega

/-! ## from the decoder to the messages -/

/-- The line of a message. -/
def lineOf (m : Message) : List Bytes × Bytes := (wireFields m, m.message)

theorem frameOf_line {t : Transport} {z : UInt8} (ht : t = .lfEnded ∧ z = 10 ∨ t = .zeroEnded ∧ z = 0) {m : Message} (h : TransmissibleLine z m) :
    frameOf t m = endedLine z (lineOf m) := by
  have hz : z = 10 ∨ z = 0 := by rcases ht with ⟨_, h⟩ | ⟨_, h⟩ <;> simp [h]
  rw [frameOf, (line_of_message hz h).2.1]
  rcases ht with ⟨rfl, rfl⟩ | ⟨rfl, rfl⟩ <;> rfl

theorem frames_lines {t : Transport} {z : UInt8} (ht : t = .lfEnded ∧ z = 10 ∨ t = .zeroEnded ∧ z = 0) {ms : List Message}
    (h : ∀ m ∈ ms, TransmissibleLine z m) : (ms.map (frameOf t)).flatten = (ms.map lineOf).flatMap (endedLine z) := by
  rw [List.flatMap_def, List.map_map, List.map_congr_left fun m hm => frameOf_line ht (h m hm)]
  rfl

theorem taken_received {t : Transport} {z : UInt8} (hz : terminator t = some z) {m : Message} (h : TransmissibleLine z m) {d : Tok.Delivered}
    (hd : LineTaken t z (lineText (lineOf m)) m.message d.msg d.err) : IsReceived m d := by
  obtain ⟨h1, h2, h3⟩ := line_of_message (term_or hz) h
  obtain ⟨_, spare, suffix, eof, h4⟩ := hd
  obtain ⟨m', e', h5, h6⟩ := line_conveys (l := lineOf m) (term_of hz) h1 suffix spare eof
  rw [h4] at h5
  simp only [Out.ret.injEq, Prod.mk.injEq, true_and] at h5
  obtain ⟨rfl, rfl⟩ := h5
  exact conveys_isReceived h3 h2 h6

theorem taken_received_all {t : Transport} {z : UInt8} (hz : terminator t = some z) {ps : List (Bytes × Bytes)} {ds : List Tok.Delivered}
    (h : Each (fun p d => LineTaken t z p.1 p.2 d.msg d.err) ps ds) : ∀ {ms : List Message}, (∀ m ∈ ms, TransmissibleLine z m) →
    ps = (ms.map lineOf).map (fun l => (lineText l, l.2)) → Each IsReceived ms ds := by
  induction h with
  | nil =>
    intro ms _ hp
    cases ms with
    | nil => exact .nil
    | cons m ms => cases hp
  | cons h _ ih =>
    intro ms hms hp
    cases ms with
    | nil => cases hp
    | cons m ms =>
      simp only [List.map_cons, List.cons.injEq] at hp
      obtain ⟨rfl, hp⟩ := hp
      exact .cons (taken_received hz (hms m (by simp)) h) (ih (fun m hm => hms m (by simp [hm])) hp)

/-- What the goroutine of a connection delivers from the rest of a line and the frames behind it. -/
theorem resync_run {t : Transport} {z : UInt8} (ht : t = .lfEnded ∧ z = 10 ∨ t = .zeroEnded ∧ z = 0) {ms : List Message}
    (hms : ∀ m ∈ ms, TransmissibleLine z m) {g : Bytes} (hg : z ∉ g) {reads : List Read} {b : Bool} {tok : Tok.State}
    (hrun : Tok.Run t Tok.init reads (.ret (b, tok))) (harr : arrived reads <+: g ++ z :: (ms.map (frameOf t)).flatten)
    {d : Tok.Delivered} {r : List Tok.Delivered} (hd : tok.out = d :: r) :
    ∃ j, j + r.length ≤ ms.length ∧ d.err = none ∧ d.msg.string ++ [z] = g ++ z :: ((ms.take j).map (frameOf t)).flatten ∧
      Each IsReceived ((ms.drop j).take r.length) r ∧ ((93 : UInt8) ∉ arrived reads → j ≤ 1) ∧
      ∀ e ≤ ms.length, g ++ z :: ((ms.take e).map (frameOf t)).flatten <+: arrived reads → e ≤ j + r.length := by
  have hz : terminator t = some z := by rcases ht with ⟨rfl, rfl⟩ | ⟨rfl, rfl⟩ <;> rfl
  obtain ⟨ps, ds, h1, h2, h3⟩ := (run_lines hz hrun Tok.mem_init).1 b tok rfl
  rw [pending_init] at h1
  rw [show Tok.init.out = [] from rfl, List.nil_append] at h2
  rw [hd] at h2
  subst h2
  have hst := decodesReads_stuck h1 (fun ⟨_, _, _, h⟩ => lineReady_ne_nil h)
  have hch := chain_of_reads h1
  rw [List.nil_append, flatten_data] at hch
  generalize arrived reads = B at *
  cases h3 with
  | @cons p _ ps _ hp0 hps =>
    obtain ⟨p, text⟩ := p
    rw [frames_lines ht hms] at harr
    have hls : ∀ l ∈ ms.map lineOf, Line z l.1 l.2 := by
      intro l hl
      obtain ⟨m, hm, rfl⟩ := List.mem_map.mp hl
      exact (line_of_message (term_or hz) (hms m hm)).1
    obtain ⟨j, g1, g2, g3, g4, g5⟩ := Chain.cut hz hch hls hg harr
    have hlen := each_length hps
    rw [← hlen] at g1 g3 g4 g5
    rw [List.length_map] at g1
    have hstr : d.msg.string = p ∧ d.err = none := by
      obtain ⟨⟨_, _, _, _, _, _, _, _, _, _, he, hs, _⟩, _⟩ := hp0
      exact ⟨hs, he⟩
    refine ⟨j, g1, hstr.2, ?_, ?_, ?_, ?_⟩
    · rw [hstr.1, g2, ← List.map_take, frames_lines ht (fun m hm => hms m (List.mem_of_mem_take hm))]
    · refine taken_received_all hz hps (fun m hm => hms m (List.mem_of_mem_drop (List.mem_of_mem_take hm))) ?_
      rw [List.map_take, List.map_drop]; exact g3
    · intro hn
      refine Nat.le_of_not_lt fun hj => ?_
      match ms, g1, g2, hls with
      | [], g1, _, _ => simp at g1; omega
      | [_], g1, _, _ => simp at g1; omega
      | m :: m' :: ms', _, g2, hls =>
        obtain ⟨j', rfl⟩ : ∃ j', j = j' + 2 := ⟨j - 2, by omega⟩
        cases hch with
        | @cons b more _ _ suffix _ _ h _ =>
          refine cut_reach (g := g) (hls (lineOf m) (by simp)) h (fun h' => hn (List.mem_append_left _ h')) ?_
          simp only [List.map_cons, List.take_succ_cons, List.flatMap_cons, endedLine] at g2
          refine List.prefix_of_prefix_length_le (l₃ := p ++ [z]) ?_ (List.prefix_append _ _) ?_
          · rw [g2]
            exact ⟨lineText (lineOf m') ++ [z] ++ ((ms'.map lineOf).take j').flatMap (endedLine z), by simp [endedLine]⟩
          · have := congrArg List.length g2
            simp at this ⊢
            omega
    · intro e he hpre
      refine Nat.le_of_not_lt fun hlt => hst ?_
      rw [frames_lines ht (fun m hm => hms m (List.mem_of_mem_take hm)), List.map_take] at hpre
      have hK : j + r.length < (ms.map lineOf).length := by rw [List.length_map]; omega
      obtain ⟨w, rfl⟩ : ∃ w, e = j + r.length + (w + 1) := ⟨e - (j + r.length) - 1, by omega⟩
      rw [List.take_add, List.flatMap_append, ← List.cons_append, ← List.append_assoc, ← g5, List.prefix_append_right_inj,
        List.drop_eq_getElem_cons hK, List.take_succ_cons, List.flatMap_cons] at hpre
      obtain ⟨x, hx⟩ := (List.prefix_append _ _).trans hpre
      have hl := hls _ (List.getElem_mem hK)
      generalize (ms.map lineOf)[j + r.length] = l at hx hl
      refine ⟨lineText l, l.2, x, l.1, [], SP, ?_, hl.text, by rw [← hx]; rfl⟩
      have := Frame.dashText (t := l.2 ++ [z] ++ x) hl.six (fun f hf => (hl.raw f hf).1)
      rw [← hx]
      simpa [lineText, endedLine] using this

/-! ## C116 -/

/-- What is on the wire of a connection that begins inside a frame. -/
theorem cut_stream {t : Transport} {z : UInt8} (ht : t = .lfEnded ∧ z = 10 ∨ t = .zeroEnded ∧ z = 0)
    {es : List Sender.Event} {s : Sender.State} (hs : History t es s) (hmsgs : ∀ m ∈ sent es, TransmissibleLine z m)
    {pre post : List Sender.Conn} {c : Sender.Conn} (hc : s.conns = pre ++ c :: post)
    {n : Nat} {part rest : Bytes} (hrest : rest ≠ []) (hfr : (frames t es)[n]? = some (part ++ rest))
    (hcut : bytesOn pre = ((frames t es).take n).flatten ++ part) :
    ∃ g, rest = g ++ [z] ∧ z ∉ g ∧ n + 1 ≤ (sent es).length ∧
      c.writes.flatten <+: g ++ z :: (((sent es).drop (n + 1)).map (frameOf t)).flatten := by
  have hz : z = 10 ∨ z = 0 := by rcases ht with ⟨_, h⟩ | ⟨_, h⟩ <;> simp [h]
  have hok : ∀ m ∈ sent es, ∃ b, m.marshal = .ret (.ok b) := fun m hm => ⟨_, (line_of_message hz (hmsgs m hm)).2.1⟩
  have hw := C37_goes_on t es s hs pre post c hc
  have hf : (frames t es).flatten = ((frames t es).take n).flatten ++ ((frames t es).drop n).flatten := by
    rw [← List.flatten_append, List.take_append_drop]
  obtain ⟨hlt, hfr⟩ := List.getElem?_eq_some_iff.mp hfr
  have e : (frames t es).flatten.drop (bytesOn pre).length = rest ++ ((frames t es).drop (n + 1)).flatten := by
    rw [hf, List.drop_eq_getElem_cons hlt, hfr, hcut, List.flatten_cons]
    have : ∀ a : Bytes, a ++ (part ++ rest ++ ((frames t es).drop (n + 1)).flatten) =
      (a ++ part) ++ (rest ++ ((frames t es).drop (n + 1)).flatten) := by intro a; simp
    rw [this, List.drop_left]
  rw [e] at hw
  have hfs := frames_sent (t := t) es hok
  have hlen : (frames t es).length = (sent es).length := by rw [hfs, List.length_map]
  have hn : n < (sent es).length := by omega
  have hfr' : frameOf t (sent es)[n] = part ++ rest := by
    rw [← hfr]; simp only [hfs, List.getElem_map]
  have hm := hmsgs _ (List.getElem_mem hn)
  generalize (sent es)[n] = m at hfr' hm
  rw [frameOf_line ht hm, endedLine] at hfr'
  have hclean := line_clean (l := lineOf m) hz (line_of_message hz hm).1
  have hlast : rest.getLast? = some z := by
    have := congrArg List.getLast? hfr'
    rw [List.getLast?_append, List.getLast?_singleton, Option.some_or, List.getLast?_append, List.getLast?_eq_some_getLast hrest, Option.some_or] at this
    rw [List.getLast?_eq_some_getLast hrest]; exact this.symm
  obtain ⟨g, rfl⟩ := List.getLast?_eq_some_iff.mp hlast
  refine ⟨g, rfl, ?_, hn, ?_⟩
  · rw [← List.append_assoc] at hfr'
    have := List.append_cancel_right hfr'
    intro h
    exact hclean (show z ∈ lineText (lineOf m) by rw [this]; exact List.mem_append_right _ h)
  · rw [hfs, ← List.map_drop] at hw
    simpa using hw

/-- **C116.** A connection that begins inside a frame (`rest` is what is left of it; the LF or NUL transport). At every moment: the first pair
that was received from it is made of `rest` and the `j` whole frames behind it, taken for one message; every pair after that is a message that was sent, and they
are the messages behind these, in order, each once, with all their fields and no error. As long as no closing bracket arrives, `j` is at
most one: besides the message that was cut, at most one is lost. And when all that arrived has been received, every frame that has arrived whole behind these has been delivered.
What is missing: that a first pair is received at all, see `C116_stuck_violated`, and the bound on `j` with brackets. -/
theorem C116_resync_partial (t : Transport) (z : UInt8) (ht : t = .lfEnded ∧ z = 10 ∨ t = .zeroEnded ∧ z = 0)
    (es : List Sender.Event) (s : Sender.State) (hs : History t es s) (hmsgs : ∀ m ∈ sent es, TransmissibleLine z m)
    (pre post : List Sender.Conn) (c : Sender.Conn) (hc : s.conns = pre ++ c :: post)
    (n : Nat) (part rest : Bytes) (hrest : rest ≠ []) (hfr : (frames t es)[n]? = some (part ++ rest))
    (hcut : bytesOn pre = ((frames t es).take n).flatten ++ part)
    (lenQueue : Nat) (er : List Recv.Event) (q : Recv.State) (hq : Recv.run t lenQueue Recv.init er = some q) (hcr : q.crashed = false)
    (i : Nat) (k : Recv.Conn) (hi : q.conns[i]? = some k) (hwire : arrived (readsOf i er) <+: c.writes.flatten)
    (d : Tok.Delivered) (r : List Tok.Delivered) (hd : ofConn i q.got = d :: r) :
    ∃ j, n + 1 + j + r.length ≤ (sent es).length ∧ d.err = none ∧
      d.msg.string ++ [z] = rest ++ (((frames t es).drop (n + 1)).take j).flatten ∧
      Each IsReceived (((sent es).drop (n + 1 + j)).take r.length) r ∧
      ((93 : UInt8) ∉ arrived (readsOf i er) → j ≤ 1) ∧
      (k.pending = [] → ofConn i q.pipeline = [] → ∀ e, n + 1 + e ≤ (sent es).length →
        rest ++ (((frames t es).drop (n + 1)).take e).flatten <+: arrived (readsOf i er) → e ≤ j + r.length) := by
  have hz : z = 10 ∨ z = 0 := by rcases ht with ⟨_, h⟩ | ⟨_, h⟩ <;> simp [h]
  have hfs := frames_sent (t := t) es fun m hm => ⟨_, (line_of_message hz (hmsgs m hm)).2.1⟩
  obtain ⟨g, rfl, hg, hn, hw⟩ := cut_stream ht hs hmsgs hc hrest hfr hcut
  obtain ⟨b, tok, h1, h2⟩ := C44_order t lenQueue er q hq hcr i k hi
  rw [hd, List.append_assoc, List.cons_append] at h2
  obtain ⟨j, g1, g2, g3, g4, g5, g6⟩ := resync_run ht (fun m hm => hmsgs m (List.mem_of_mem_drop hm)) hg h1 (hwire.trans hw) h2.symm
  have hfr : ∀ e, (g ++ [z]) ++ (((frames t es).drop (n + 1)).take e).flatten = g ++ z :: ((((sent es).drop (n + 1)).take e).map (frameOf t)).flatten := by
    intro e
    rw [hfs, List.map_take, List.map_drop]; simp
  rw [List.length_append, List.length_drop] at g1
  refine ⟨j, by omega, g2, by rw [hfr]; exact g3, ?_, g5, ?_⟩
  · have := each_prefix g4
    rw [List.take_take, List.length_append, Nat.min_eq_left (by omega), List.drop_drop] at this
    exact this
  · intro hp hq e he hpre
    rw [hp, hq, List.append_nil, List.append_nil] at g6
    refine g6 e (by rw [List.length_drop]; omega) ?_
    rw [← hfr]; exact hpre

/-- C116 is violated by a cut before a space: nothing is ever received from such a connection, whatever is sent (see `C61_poisoned_violated` for the
same on the first connection). -/
theorem C116_stuck_violated (t : Transport) (z : UInt8) (ht : t = .lfEnded ∧ z = 10 ∨ t = .zeroEnded ∧ z = 0)
    (es : List Sender.Event) (s : Sender.State) (hs : History t es s)
    (pre post : List Sender.Conn) (c : Sender.Conn) (hc : s.conns = pre ++ c :: post)
    (n : Nat) (part rest : Bytes) (hfr : (frames t es)[n]? = some (part ++ 32 :: rest))
    (hcut : bytesOn pre = ((frames t es).take n).flatten ++ part)
    (lenQueue : Nat) (er : List Recv.Event) (q : Recv.State) (hq : Recv.run t lenQueue Recv.init er = some q) (hcr : q.crashed = false)
    (i : Nat) (k : Recv.Conn) (hi : q.conns[i]? = some k) (hwire : arrived (readsOf i er) <+: c.writes.flatten) : ofConn i q.got = [] := by
  have hz : terminator t = some z := by rcases ht with ⟨rfl, rfl⟩ | ⟨rfl, rfl⟩ <;> rfl
  cases hd : ofConn i q.got with
  | nil => rfl
  | cons d r =>
    exfalso
    obtain ⟨_, ⟨x, hx⟩, _⟩ := C72_cut_violated t z ht es s hs pre post c hc n part rest 32 (by decide) hfr hcut lenQueue er q hq hcr i k hi hwire d r hd
    obtain ⟨ps, kept, _, h2⟩ := C89_receive t z hz lenQueue er q hq hcr i k hi
    rw [hd] at h2
    cases ps with
    | nil => simp only [List.take_nil] at h2; cases h2
    | cons p ps =>
      simp only [List.length_cons, List.take_succ_cons] at h2
      cases h2 with
      | cons h _ =>
        obtain ⟨pri, ts, host, app, pid, mid, sd, y', hraw, hp, _, hstr, _⟩ := h
        obtain ⟨hne, hsp⟩ := hraw pri (by simp)
        rw [hx] at hstr
        rw [← hstr] at hp
        cases pri with
        | nil => exact hne rfl
        | cons a pri =>
          have := congrArg List.head? hp
          simp [headerText] at this
          exact hsp (by rw [this]; simp)

theorem take_count {fs : List Bytes} (hne : ∀ f ∈ fs, f ≠ []) (j' : Nat) (hj : j' ≤ fs.length) (j : Nat)
    (h : (fs.take j').flatten <+: (fs.take j).flatten) : j' ≤ j := by
  refine Nat.le_of_not_lt fun hlt => ?_
  obtain ⟨w, rfl⟩ : ∃ w, j' = j + (w + 1) := ⟨j' - j - 1, by omega⟩
  have h1 := h.length_le
  rw [List.take_add, List.flatten_append, List.drop_eq_getElem_cons (by omega), List.take_succ_cons, List.flatten_cons] at h1
  have := List.length_pos_iff.mpr (hne _ (List.getElem_mem (show j < fs.length by omega)))
  simp only [List.length_append] at h1
  omega

/-- **C116**, in time: once something has been received from a connection that began inside a frame, every message behind the first pair whose frame
was written to it whole is received, eventually (and what is received is as `C116_resync_partial` says). Writes and connections may fail as they like. -/
theorem C116_eventually_partial (t : Transport) (z : UInt8) (ht : t = .lfEnded ∧ z = 10 ∨ t = .zeroEnded ∧ z = 0)
    (ev : Nat → Option Sender.Event) (st : Nat → Sender.State) (hx : SenderExec t ev st)
    (hmsgs : ∀ n, ∀ m ∈ sent (past ev n), TransmissibleLine z m)
    (n : Nat) (pre post : List Sender.Conn) (c : Sender.Conn) (hsplit : (st n).conns = pre ++ c :: post)
    (k : Nat) (part rest : Bytes) (hrest : rest ≠ []) (hfr : (frames t (past ev n))[k]? = some (part ++ rest))
    (hcut : bytesOn pre = ((frames t (past ev n)).take k).flatten ++ part)
    (e : Nat) (he : k + 1 + e ≤ (sent (past ev n)).length)
    (hwr : rest ++ (((frames t (past ev n)).drop (k + 1)).take e).flatten <+: c.writes.flatten)
    (lenQueue : Nat) (er : Nat → Option Recv.Event) (sr : Nat → Recv.State)
    (hxr : ReceiverExec t lenQueue er sr) (hcons : Consumed t lenQueue er sr) (herr : ErrorsDrained sr)
    (hc : ∀ n, (sr n).crashed = false) (i : Nat) (hserve : Served t lenQueue i er sr) (hopen : ∃ n, i < (sr n).conns.length)
    (hfaithful : ∀ m, ∃ n, arrived (readsOf i (past er m)) <+: connBytes pre.length (st n))
    (hlive : ∃ m, c.writes.flatten <+: arrived (readsOf i (past er m)))
    (hfirst : ∃ m, ofConn i (sr m).got ≠ []) :
    ∃ n' m d r j, ofConn i (sr m).got = d :: r ∧ d.err = none ∧
      d.msg.string ++ [z] = rest ++ (((frames t (past ev n')).drop (k + 1)).take j).flatten ∧
      Each IsReceived (((sent (past ev n')).drop (k + 1 + j)).take r.length) r ∧
      ((∀ m, (93 : UInt8) ∉ arrived (readsOf i (past er m))) → j ≤ 1) ∧
      Each IsReceived (((sent (past ev n)).drop (k + 1 + j)).take (e - j)) (r.take (e - j)) := by
  have hz : z = 10 ∨ z = 0 := by rcases ht with ⟨_, h⟩ | ⟨_, h⟩ <;> simp [h]
  have hok : ∀ k, ∀ m ∈ sent (past ev k), ∃ b, m.marshal = .ret (.ok b) := fun k m hm => ⟨_, (line_of_message hz (hmsgs k m hm)).2.1⟩
  obtain ⟨a, ha⟩ := hopen
  obtain ⟨m1, hm1⟩ := hlive
  obtain ⟨m0, hm0⟩ := hfirst
  have stay : ∀ m, a ≤ m → i < (sr m).conns.length := by
    intro m hm
    obtain ⟨c', h, _⟩ := Recv.conn_stays hxr hc (List.getElem?_eq_getElem ha) hm
    rcases Nat.lt_or_ge i (sr m).conns.length with h5 | h5
    · exact h5
    · rw [List.getElem?_eq_none h5] at h; cases h
  -- everything that arrived until `N` has been received at `M`
  obtain ⟨N, hNa, hN1, hN0⟩ : ∃ N, a ≤ N ∧ m1 ≤ N ∧ m0 ≤ N := ⟨max a (max m1 m0), by omega, by omega, by omega⟩
  obtain ⟨M, g0, g2⟩ := Recv.conn_received hxr hcons hc herr hserve (List.getElem?_eq_getElem (stay N hNa))
  obtain ⟨b, tok, g1, gout⟩ := C44_order t lenQueue _ _ (Recv.history_past hxr N) (hc N) i _ (List.getElem?_eq_getElem (stay N hNa))
  replace g2 : tok.out <+: ofConn i (sr M).got := by rw [← gout]; exact g2
  obtain ⟨n2, hn2⟩ := hfaithful M
  have hn1 : n ≤ max n n2 := Nat.le_max_left _ _
  have harrM : arrived (readsOf i (past er M)) <+: connBytes pre.length (st (max n n2)) := hn2.trans (connBytes_grows (grows_exec hx (Nat.le_max_right _ _)) _)
  generalize max n n2 = n1 at hn1 harrM
  have hg := grows_exec hx hn1
  have hjn : pre.length < (st n).conns.length := by rw [hsplit]; simp
  have hjl : pre.length < (st n1).conns.length := Nat.lt_of_lt_of_le hjn hg.length
  obtain ⟨x, hx'⟩ := sent_past_prefix ev hn1
  have hfx : frames t (past ev n1) = frames t (past ev n) ++ x.map (frameOf t) := by
    rw [frames_sent _ (hok n1), frames_sent _ (hok n), ← hx', List.map_append]
  have hflen : (frames t (past ev n)).length = (sent (past ev n)).length := by rw [frames_sent _ (hok n), List.length_map]
  have hfr1 : (frames t (past ev n1))[k]? = some (part ++ rest) := by
    rw [hfx, List.getElem?_append_left (List.getElem?_eq_some_iff.mp hfr).1]; exact hfr
  have hcut1 : bytesOn ((st n1).conns.take pre.length) = ((frames t (past ev n1)).take k).flatten ++ part := by
    rw [bytesOn_same hg _ hjn, hsplit, List.take_left, hcut, hfx, List.take_append_of_le_length (by omega)]
  have hcb : connBytes pre.length (st n1) = ((st n1).conns[pre.length]).writes.flatten := by
    unfold connBytes; rw [List.getElem?_eq_getElem hjl]; rfl
  have hsplit1 : (st n1).conns = (st n1).conns.take pre.length ++ (st n1).conns[pre.length] :: (st n1).conns.drop (pre.length + 1) := by
    rw [List.getElem_cons_drop, List.take_append_drop]
  have hh := Sender.history_past hx n1
  rw [hcb] at harrM
  have hi := stay M (by omega)
  have hleM : arrived (readsOf i (past er N)) <+: arrived (readsOf i (past er M)) := arrived_past_prefix i er g0
  -- at `M`, in order
  have hgotM : (sr m0).got <+: (sr M).got := got_exec hxr (by omega)
  obtain ⟨w, hw⟩ := hgotM
  cases hd : ofConn i (sr M).got with
  | nil =>
    exfalso
    rw [← hw] at hd
    simp only [ofConn, List.filterMap_append, List.append_eq_nil_iff] at hd
    exact hm0 hd.1
  | cons d r =>
    obtain ⟨j, h1, h2, h3, h4, h5, _⟩ := C116_resync_partial t z ht _ _ hh (hmsgs n1) _ _ _ hsplit1 k part rest hrest hfr1 hcut1 lenQueue _ _
      (Recv.history_past hxr M) (hc M) i _ (List.getElem?_eq_getElem hi) harrM d r hd
    refine ⟨n1, M, d, r, j, hd, h2, h3, h4, fun h => h5 (h M), ?_⟩
    obtain ⟨g, rfl, hgz, hn, hwire⟩ := cut_stream ht hh (hmsgs n1) hsplit1 hrest hfr1 hcut1
    have hNw := (hleM.trans harrM).trans hwire
    -- at `N`, something was decoded
    obtain ⟨w', hw'⟩ := got_exec hxr hN0
    have hne : tok.out ≠ [] := by
      rw [← gout, ← hw']
      simp only [ofConn, List.filterMap_append, ne_eq, List.append_eq_nil_iff, not_and]
      exact fun h => absurd h.1.1 hm0
    obtain ⟨d', r', ho⟩ := List.exists_cons_of_ne_nil hne
    obtain ⟨j', f1, _, f3, f4, _, f6⟩ := resync_run ht (fun m hm => hmsgs n1 m (List.mem_of_mem_drop hm)) hgz g1 hNw ho
    rw [List.length_drop] at f1
    rw [ho, hd] at g2
    obtain ⟨v, hv⟩ := g2
    simp only [List.cons_append, List.cons.injEq] at hv
    obtain ⟨rfl, rfl⟩ := hv
    have hfs := frames_sent (t := t) _ (hok n1)
    have hframes : ∀ e, (g ++ [z]) ++ (((frames t (past ev n1)).drop (k + 1)).take e).flatten =
        g ++ z :: ((((sent (past ev n1)).drop (k + 1)).take e).map (frameOf t)).flatten := by
      intro e
      rw [hfs, List.map_take, List.map_drop]; simp
    have hlen1 : (sent (past ev n)).length ≤ (sent (past ev n1)).length := by rw [← hx']; simp
    -- both count the same frames
    have hjj : e - j ≤ r'.length := by
      have hle : e ≤ j' + r'.length := by
        refine f6 e (by rw [List.length_drop]; omega) ?_
        rw [← hframes, hfx, List.drop_append_of_le_length (by omega), List.take_append_of_le_length (by rw [List.length_drop]; omega)]
        exact hwr.trans (hm1.trans (arrived_past_prefix i er hN1))
      have : j' ≤ j := by
        have hz1 : (g ++ [z]) ++ (((frames t (past ev n1)).drop (k + 1)).take j').flatten <+:
            (g ++ [z]) ++ (((frames t (past ev n1)).drop (k + 1)).take j).flatten := by rw [← h3, hframes, f3]; exact List.prefix_refl _
        refine take_count ?_ _ (by rw [List.length_drop, hfs, List.length_map]; omega) _ ((List.prefix_append_right_inj _).mp hz1)
        intro f hf
        rw [hfs] at hf
        obtain ⟨m, hm, rfl⟩ := List.mem_map.mp (List.mem_of_mem_drop hf)
        rw [frameOf_line ht (hmsgs n1 m hm), endedLine]
        simp
      omega
    have key := each_take h4 (e - j)
    rw [List.take_take, List.length_append, Nat.min_eq_left (by omega)] at key
    have : ((sent (past ev n1)).drop (k + 1 + j)).take (e - j) = ((sent (past ev n)).drop (k + 1 + j)).take (e - j) := by
      rcases Nat.lt_or_ge e j with h | h
      · rw [Nat.sub_eq_zero_of_le (by omega)]; simp
      · rw [← hx', List.drop_append_of_le_length (by omega), List.take_append_of_le_length (by rw [List.length_drop]; omega)]
    rwa [this] at key

/-! ## whether there is a first message -/

theorem Spec.SevenWords.more {z : UInt8} {b : Bytes} (h : SevenWords z b) (y : Bytes) : SevenWords z (b ++ y) := by
  obtain ⟨ws, w, x, h1, h2, h3, h4, h5⟩ := h
  refine ⟨ws, w, x ++ y, h1, h2, by rw [h3]; simp, h4, ?_⟩
  rcases h5 with ⟨h5, h6⟩ | ⟨h5, h6⟩
  · exact Or.inl ⟨h5, List.mem_append_left _ h6⟩
  · refine Or.inr ⟨h5, ?_⟩
    rw [← List.append_assoc]
    exact List.mem_append_left _ h6

theorem quiet_of_no_bracket {b : Bytes} (h0 : b ≠ []) (h : (93 : UInt8) ∉ b) : Quiet b := .last h0 h

/-- Without brackets: bytes that begin with a message, exactly. -/
theorem ready_iff_words {z : UInt8} (hz : z = 10 ∨ z = 0) {b : Bytes} (hn : (93 : UInt8) ∉ b) :
    (∃ p text suffix, LineReady z b p text suffix) ↔ SevenWords z b := by
  constructor
  · rintro ⟨p, text, suffix, fs, xs, y, hF, hc, hb⟩
    generalize ho : some (y :: (text ++ [z] ++ suffix)) = o at hF
    cases hF with
    | dash => cases ho
    | @dashText _ t' h6 hr =>
      simp only [List.cons_append, List.nil_append, Option.some.injEq, List.cons.injEq] at ho
      exact ⟨fs, b!"-", t', h6, hr, by simp, by decide, Or.inl ⟨rfl, by rw [← ho.2]; simp⟩⟩
    | @sd _ _ _ tail h6 hr hi hs =>
      rw [List.mem_append, not_or] at hn
      have htail : o = some tail := by
        cases hi with
        | stop h => exact absurd (element_has_bracket h) hn.2
        | quiet _ => rfl
        | more h _ => exact absurd (List.mem_append_left _ (element_has_bracket h)) hn.2
      rw [htail] at ho
      simp only [Option.some.injEq] at ho
      obtain ⟨w, q, h1, h2, h3⟩ := hs
      refine ⟨fs, w, q, h6, hr, by rw [h1]; simp, h2, Or.inr ⟨h3, ?_⟩⟩
      have : tail.drop 1 = w.drop 1 ++ b!" " ++ q := by
        rw [h1, List.append_assoc, List.append_assoc, List.drop_append_of_le_length (by omega)]
      rw [← this, ← ho]
      simp
  · rintro ⟨ws, w, x, h1, h2, rfl, h4, h5⟩
    have split : ∀ (pre : Bytes) (y : UInt8) (v : Bytes), headerText ws ++ w ++ b!" " ++ x = pre ++ y :: v → z ∈ v →
        (∃ xs, Frame (headerText ws ++ w ++ b!" " ++ x) ws xs (some (y :: v))) →
        ∃ p text suffix, LineReady z (headerText ws ++ w ++ b!" " ++ x) p text suffix := by
      intro pre y v he hv ⟨xs, hF⟩
      obtain ⟨text, suffix, rfl, hnt⟩ := List.eq_append_cons_of_mem hv
      refine ⟨pre ++ y :: text, text, suffix, ws, xs, y, ?_, hnt, ?_⟩
      · simpa using hF
      · rw [he]; simp
    rcases h5 with ⟨rfl, h6⟩ | ⟨h5, h6⟩
    · refine split (headerText ws ++ b!"-") 32 x (by simp) h6 ⟨[], ?_⟩
      have := Frame.dashText (t := x) h1 h2
      simpa using this
    · match w, h5 with
      | a :: b :: w, _ =>
        refine split (headerText ws) a (b :: w ++ b!" " ++ x) (by simp) (by simpa using h6) ⟨[], ?_⟩
        have := Frame.sd (tail := (a :: b :: w) ++ b!" " ++ x) h1 h2
          (.quiet (quiet_of_no_bracket (by simp) (fun h => hn (by rw [List.append_assoc, List.append_assoc]; exact List.mem_append_right _ (by simpa using h)))))
          ⟨a :: b :: w, x, rfl, h4, by simp⟩
        simpa using this

theorem first_run {t : Transport} {z : UInt8} (hz : terminator t = some z) {reads : List Read} {b : Bool} {tok : Tok.State}
    (hrun : Tok.Run t Tok.init reads (.ret (b, tok))) (hn : (93 : UInt8) ∉ arrived reads) : tok.out ≠ [] ↔ SevenWords z (arrived reads) := by
  obtain ⟨ps, ds, h1, h2, h3⟩ := (run_lines hz hrun Tok.mem_init).1 b tok rfl
  rw [pending_init] at h1
  rw [show Tok.init.out = [] from rfl, List.nil_append] at h2
  have hst := decodesReads_stuck h1 (fun ⟨_, _, _, h⟩ => lineReady_ne_nil h)
  have hch := chain_of_reads h1
  rw [List.nil_append, flatten_data] at hch
  rw [h2]
  generalize arrived reads = B at *
  generalize tok.pending = rest at *
  cases hch with
  | nil =>
    cases h3
    rw [ready_iff_words (term_or hz) hn] at hst
    exact ⟨fun h => absurd rfl h, fun h => absurd h hst⟩
  | @cons b more p text suffix _ ps h _ =>
    rw [List.mem_append, not_or] at hn
    refine ⟨fun _ => ((ready_iff_words (term_or hz) hn.1).mp ⟨_, _, _, h⟩).more _, fun _ => ?_⟩
    cases h3
    exact List.cons_ne_nil _ _

/-- **C116**: whether anything is received from a connection (any connection with the LF or NUL transport, whatever its peer writes) as long as no closing bracket
arrives: exactly if what has arrived begins with seven words (`SevenWords`). -/
theorem C116_first_exactly (t : Transport) (z : UInt8) (ht : t = .lfEnded ∧ z = 10 ∨ t = .zeroEnded ∧ z = 0)
    (lenQueue : Nat) (er : List Recv.Event) (q : Recv.State) (hq : Recv.run t lenQueue Recv.init er = some q) (hcr : q.crashed = false)
    (i : Nat) (k : Recv.Conn) (hi : q.conns[i]? = some k) (hn : (93 : UInt8) ∉ arrived (readsOf i er)) :
    (ofConn i q.got ≠ [] → SevenWords z (arrived (readsOf i er))) ∧
    (k.pending = [] → ofConn i q.pipeline = [] → SevenWords z (arrived (readsOf i er)) → ofConn i q.got ≠ []) := by
  have hz : terminator t = some z := by rcases ht with ⟨rfl, rfl⟩ | ⟨rfl, rfl⟩ <;> rfl
  obtain ⟨b, tok, h1, h2⟩ := C44_order t lenQueue er q hq hcr i k hi
  have h := first_run hz h1 hn
  rw [← h2] at h
  refine ⟨fun hg => h.mp ?_, fun hp hpi hw => ?_⟩
  · intro he
    simp only [List.append_eq_nil_iff] at he
    exact hg he.1.1
  · have := h.mpr hw
    rwa [hp, hpi, List.append_nil, List.append_nil] at this

/-- Frames of messages without closing brackets contain none. -/
theorem frames_no_bracket {t : Transport} {z : UInt8} (ht : t = .lfEnded ∧ z = 10 ∨ t = .zeroEnded ∧ z = 0) {es : List Sender.Event}
    (hmsgs : ∀ m ∈ sent es, TransmissibleLine z m) (hb : ∀ m ∈ sent es, ∀ b, m.marshal = .ret (.ok b) → (93 : UInt8) ∉ b) :
    (93 : UInt8) ∉ (frames t es).flatten := by
  have hz : z = 10 ∨ z = 0 := by rcases ht with ⟨_, h⟩ | ⟨_, h⟩ <;> simp [h]
  rw [frames_sent (t := t) es fun m hm => ⟨_, (line_of_message hz (hmsgs m hm)).2.1⟩]
  intro h
  obtain ⟨f, hf, h⟩ := List.mem_flatten.mp h
  obtain ⟨m, hm, rfl⟩ := List.mem_map.mp hf
  rw [frameOf_line ht (hmsgs m hm), endedLine, List.mem_append] at h
  rcases h with h | h
  · exact hb m hm _ (line_of_message hz (hmsgs m hm)).2.1 h
  · rcases hz with rfl | rfl <;> simp at h

/-- **C116**, in time, for messages without closing brackets: if what was written to a connection that began inside a frame begins with seven words, then every message whose
frame was written to it whole is received, eventually, but for at most the first one behind the cut. Writes and connections may fail as they like. -/
theorem C116_words_eventually (t : Transport) (z : UInt8) (ht : t = .lfEnded ∧ z = 10 ∨ t = .zeroEnded ∧ z = 0)
    (ev : Nat → Option Sender.Event) (st : Nat → Sender.State) (hx : SenderExec t ev st)
    (hmsgs : ∀ n, ∀ m ∈ sent (past ev n), TransmissibleLine z m)
    (hbr : ∀ n, ∀ m ∈ sent (past ev n), ∀ b, m.marshal = .ret (.ok b) → (93 : UInt8) ∉ b)
    (n : Nat) (pre post : List Sender.Conn) (c : Sender.Conn) (hsplit : (st n).conns = pre ++ c :: post)
    (k : Nat) (part rest : Bytes) (hrest : rest ≠ []) (hfr : (frames t (past ev n))[k]? = some (part ++ rest))
    (hcut : bytesOn pre = ((frames t (past ev n)).take k).flatten ++ part)
    (e : Nat) (he : k + 1 + e ≤ (sent (past ev n)).length)
    (hwr : rest ++ (((frames t (past ev n)).drop (k + 1)).take e).flatten <+: c.writes.flatten) (hwords : SevenWords z c.writes.flatten)
    (lenQueue : Nat) (er : Nat → Option Recv.Event) (sr : Nat → Recv.State)
    (hxr : ReceiverExec t lenQueue er sr) (hcons : Consumed t lenQueue er sr) (herr : ErrorsDrained sr)
    (hc : ∀ n, (sr n).crashed = false) (i : Nat) (hserve : Served t lenQueue i er sr) (hopen : ∃ n, i < (sr n).conns.length)
    (hfaithful : ∀ m, ∃ n, arrived (readsOf i (past er m)) <+: connBytes pre.length (st n))
    (hlive : ∃ m, c.writes.flatten <+: arrived (readsOf i (past er m))) :
    ∃ m d r j, ofConn i (sr m).got = d :: r ∧ j ≤ 1 ∧
      Each IsReceived (((sent (past ev n)).drop (k + 1 + j)).take (e - j)) (r.take (e - j)) := by
  have hz : terminator t = some z := by rcases ht with ⟨rfl, rfl⟩ | ⟨rfl, rfl⟩ <;> rfl
  have hnb : ∀ m, (93 : UInt8) ∉ arrived (readsOf i (past er m)) := by
    intro m hm
    obtain ⟨n2, h2⟩ := hfaithful m
    have h3 : connBytes pre.length (st n2) <:+: (frames t (past ev n2)).flatten := by
      unfold connBytes
      cases hg : (st n2).conns[pre.length]? with
      | none => exact ⟨[], (frames t (past ev n2)).flatten, by simp⟩
      | some c' =>
        have hlt := (List.getElem?_eq_some_iff.mp hg).1
        have hsp : (st n2).conns = (st n2).conns.take pre.length ++ c' :: (st n2).conns.drop (pre.length + 1) := by
          rw [← (List.getElem?_eq_some_iff.mp hg).2, List.getElem_cons_drop, List.take_append_drop]
        exact (C37_goes_on t _ _ (Sender.history_past hx n2) _ _ _ hsp).isInfix.trans (List.drop_suffix _ _).isInfix
    exact frames_no_bracket ht (hmsgs n2) (hbr n2) (h3.subset (h2.subset hm))
  have hfirst : ∃ m, ofConn i (sr m).got ≠ [] := by
    obtain ⟨a, ha⟩ := hopen
    obtain ⟨m1, hm1⟩ := hlive
    have hN : i < (sr (max a m1)).conns.length := by
      obtain ⟨c', h, _⟩ := Recv.conn_stays hxr hc (List.getElem?_eq_getElem ha) (Nat.le_max_left a m1)
      exact (List.getElem?_eq_some_iff.mp h).1
    obtain ⟨M, b, tok, _, g1, g2⟩ := C83_received t lenQueue er sr hxr hcons herr hc i hserve (max a m1) hN
    obtain ⟨y, hy⟩ := hm1.trans (arrived_past_prefix i er (Nat.le_max_right a m1))
    have := (first_run hz g1 (hnb _)).mpr (by rw [← hy]; exact hwords.more y)
    refine ⟨M, fun h => ?_⟩
    rw [h] at g2
    exact this (List.prefix_nil.mp g2)
  obtain ⟨n', m, d, r, j, h1, _, _, _, h5, h6⟩ := C116_eventually_partial t z ht ev st hx hmsgs n pre post c hsplit k part rest hrest hfr hcut e he hwr lenQueue er sr
    hxr hcons herr hc i hserve hopen hfaithful hlive hfirst
  exact ⟨m, d, r, j, h1, h5 hnb, h6⟩

/-! Examples. The connection of a sender fails inside a message; on the next one there are the rest of it and another message. -/

/-- The sender. -/
def cutForever : List Sender.Event :=
  [.send demoLine, .tick, .tau, .connect none, .tau, .tau, .write 20 (some (.other 0)), .tau, .tau,
   .tick, .tau, .connect none, .tau, .tau, .write 57 none, .tau, .tau, .tau, .recvErr (.write 0),
   .send demoLine, .tick, .tau, .tau, .tau, .write 77 none, .tau, .tau, .tau, .tick, .tau, .tau, .tau, .tau]

/-- Its receiver: the rest is taken for a message, and the other message is received. -/
def cutForeverReceived : List Recv.Event :=
  [.tau, .acceptOk, .read 0 { data := demoLineFrame.take 20 }, .tau, .acceptOk, .read 1 { data := demoLineFrame.drop 20 }, .handoff 1,
   .read 1 { data := demoLineFrame }, .handoff 1]

theorem cutForever_steps : ∀ i, i < 33 → (match cutForever[i]? with | some e => Sender.step .lfEnded (after .lfEnded cutForever i) e | none => some (after .lfEnded cutForever i)) =
      some (after .lfEnded cutForever (if i + 1 = 33 then 28 else i + 1)) := by decide +kernel

theorem cutForeverReceived_run : ∃ q, Recv.run .lfEnded 0 Recv.init cutForeverReceived = some q ∧ q.crashed = false ∧ q.pipeline = [] ∧ q.errs = 0 ∧
    q.conns.length = 2 ∧ (∀ c ∈ q.conns, c.pending = [] ∧ c.errPending = false) ∧ (ofConn 1 q.got).length = 2 := by
  have h : (match Recv.run .lfEnded 0 Recv.init cutForeverReceived with
      | some q => !q.crashed && q.pipeline.isEmpty && decide (q.errs = 0) && decide (q.conns.length = 2) &&
        (q.conns.all fun c => c.pending.isEmpty && !c.errPending) && decide ((ofConn 1 q.got).length = 2)
      | none => false) = true := by decide +kernel
  cases hq : Recv.run .lfEnded 0 Recv.init cutForeverReceived with
  | none => rw [hq] at h; cases h
  | some q =>
    rw [hq] at h
    simp only [Bool.and_eq_true, Bool.not_eq_true', List.isEmpty_iff, decide_eq_true_eq, List.all_eq_true] at h
    exact ⟨q, rfl, h.1.1.1.1.1, h.1.1.1.1.2, h.1.1.1.2, h.1.1.2, h.1.2, h.2⟩

theorem cutForever_past : ∀ m, past (fun n => cutForeverReceived[n]?) m = cutForeverReceived.take m := by
  intro m
  induction m with
  | zero => rfl
  | succ m ih => rw [past_succ, ih, List.take_add_one]

/-- The hypotheses of `C116_eventually_partial`, with one message behind the cut one. -/
example : ∃ ev st er sr c0 c1, SenderExec .lfEnded ev st ∧ (∀ n, ∀ m ∈ sent (past ev n), m = demoLine) ∧ (st 28).conns = [c0] ++ c1 :: [] ∧
    demoLineFrame.drop 20 ≠ [] ∧ (frames .lfEnded (past ev 28))[0]? = some (demoLineFrame.take 20 ++ demoLineFrame.drop 20) ∧
    bytesOn [c0] = ((frames .lfEnded (past ev 28)).take 0).flatten ++ demoLineFrame.take 20 ∧ 0 + 1 + 1 ≤ (sent (past ev 28)).length ∧
    demoLineFrame.drop 20 ++ (((frames .lfEnded (past ev 28)).drop 1).take 1).flatten <+: c1.writes.flatten ∧
    ReceiverExec .lfEnded 0 er sr ∧ Consumed .lfEnded 0 er sr ∧ ErrorsDrained sr ∧ (∀ n, (sr n).crashed = false) ∧
    Served .lfEnded 0 1 er sr ∧ (∃ n, 1 < (sr n).conns.length) ∧
    (∀ m, ∃ n, arrived (readsOf 1 (past er m)) <+: connBytes 1 (st n)) ∧ (∃ m, c1.writes.flatten <+: arrived (readsOf 1 (past er m))) ∧
    (∃ m, ofConn 1 (sr m).got ≠ []) := by
  obtain ⟨q, hq, h1, h2, h3, h4, h5, h6⟩ := cutForeverReceived_run
  obtain ⟨f1, f2, f3⟩ := Recv.fin_fair hq h2 (by rw [h3]; decide) h5 1
  have ha : arrived (readsOf 1 cutForeverReceived) = demoLineFrame.drop 20 ++ demoLineFrame := by decide +kernel
  have hb : connBytes 1 (lassoSt .lfEnded cutForever 28 5 28) = demoLineFrame.drop 20 ++ demoLineFrame := by decide +kernel
  refine ⟨lassoEv cutForever 28 5, lassoSt .lfEnded cutForever 28 5, fun n => cutForeverReceived[n]?, Recv.finSt .lfEnded 0 cutForeverReceived,
    ⟨[demoLineFrame.take 20], false⟩, ⟨[demoLineFrame.drop 20, demoLineFrame], false⟩,
    lasso_exec _ _ 28 5 (by omega) cutForever_steps, ?_, by decide +kernel, by decide +kernel, by decide +kernel, by decide +kernel, by decide +kernel, by decide +kernel,
    Recv.fin_exec hq, f1, f2, Recv.fin_alive hq h1, f3, ⟨9, ?_⟩, ?_, ⟨9, ?_⟩, ⟨9, ?_⟩⟩
  · intro n m hm
    have := mem_of_sent hm
    simp only [past, List.mem_filterMap, List.mem_range] at this
    obtain ⟨k, _, hk⟩ := this
    have h := List.mem_of_getElem? hk
    simp only [cutForever, List.mem_cons, List.not_mem_nil, or_false, Sender.Event.send.injEq, reduceCtorEq, false_or, or_self] at h
    exact h
  · rw [Recv.fin_end hq (by decide), h4]; decide
  · intro m
    refine ⟨28, ?_⟩
    obtain ⟨r, hr⟩ := List.take_prefix m cutForeverReceived
    rw [hb, cutForever_past, ← ha]
    conv => rhs; rw [← hr, Recv.readsOf_append]
    simp only [arrived, List.flatMap_append]
    exact List.prefix_append _ _
  · have e : (([demoLineFrame.drop 20, demoLineFrame] : List Bytes)).flatten = demoLineFrame.drop 20 ++ demoLineFrame := by simp
    rw [cutForever_past, List.take_of_length_le (by decide), ha, e]
    exact List.prefix_refl _
  · rw [Recv.fin_end hq (by decide)]
    intro h
    rw [h] at h6
    cases h6

/-- What `C116_resync_partial` says of it: `j = 0`. -/
example : (match Recv.run .lfEnded 0 Recv.init cutForeverReceived with
      | some q => decide ((ofConn 1 q.got).map (fun d => d.msg.string ++ [10]) = [demoLineFrame.drop 20, demoLineFrame])
      | none => false) = true := by decide +kernel

/-- A cut close to the end of the message: the first message behind it is lost with it (`j = 1`), the next one is received. -/
def lateReceived : List Recv.Event :=
  [.tau, .acceptOk, .tau, .acceptOk, .read 1 { data := demoLineFrame.drop 70 ++ demoLineFrame }, .handoff 1, .read 1 { data := demoLineFrame }, .handoff 1]
example : (match Recv.run .lfEnded 0 Recv.init lateReceived with
      | some q => !q.crashed && decide ((ofConn 1 q.got).map (fun d => d.msg.string ++ [10]) = [demoLineFrame.drop 70 ++ demoLineFrame, demoLineFrame])
      | none => false) = true := by decide +kernel

/-- The rest of the first example, and what is written behind it, begin with seven words; it has no closing bracket. -/
example : SevenWords 10 (demoLineFrame.drop 20 ++ demoLineFrame) ∧ (93 : UInt8) ∉ demoLineFrame :=
  ⟨⟨[b!":14:15.003-07:00", b!"host.example", b!"app", b!"123", b!"ID47", b!"-"], b!"An", demoLineFrame.drop 68 ++ demoLineFrame,
    rfl, by decide, by decide +kernel, by decide, Or.inr ⟨by decide, by decide +kernel⟩⟩, by decide +kernel⟩

/-- What begins with a message identifier of one byte and a space before it does not: after such a cut nothing is ever received (`C116_first_exactly`). -/
example : ¬ SevenWords 10 b!"x y\n<0>1 - - - - A - text\n" := by
  rw [← ready_iff_words (Or.inl rfl) (by decide)]
  rintro ⟨p, text, suffix, h⟩
  obtain ⟨m, e, _⟩ := parse_ready (t := .lfEnded) rfl ⟨_, []⟩ false h
  have : parse (some ⟨b!"x y\n<0>1 - - - - A - text\n", []⟩) (some .lfEnded) false matches .ret (_, none, _) := by decide +kernel
  rw [e] at this
  cases this

/-- And a cut before a space. -/
example : ∃ rest, demoLineFrame = demoLineFrame.take 6 ++ 32 :: rest := ⟨demoLineFrame.drop 7, by decide +kernel⟩

end Syslog5424
