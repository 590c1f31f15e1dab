import Verif.Lemmas.Quote
/-! # Lemmas: a Go string literal stands for one string only, and shows where it ends -/
namespace Syslog5424.Spec

theorem utf8All_prefix {r r' : Nat} {x x' : Bytes} (hr : r < 0x110000) (hr' : r' < 0x110000)
    (h : utf8All r ++ x = utf8All r' ++ x') : r = r' ∧ x = x' := by
  unfold utf8All utf8 at h
  have key : ∀ {a b : Nat}, UInt8.ofNat a = UInt8.ofNat b → a < 256 → b < 256 → a = b := by
    intro a b hab ha hb
    have := congrArg UInt8.toNat hab
    simp at this
    omega
  by_cases h1 : r < 0x80
  · by_cases h1' : r' < 0x80
    · rw [if_pos (by omega), if_pos h1, if_pos (by omega), if_pos h1'] at h
      simp only [List.cons_append, List.nil_append, List.cons.injEq] at h
      exact ⟨key h.1 (by omega) (by omega), h.2⟩
    · rw [if_pos (by omega), if_pos h1] at h
      by_cases h2' : r' < 0x10000
      · rw [if_pos h2', if_neg h1'] at h
        split at h <;> (simp only [List.cons_append, List.nil_append, List.cons.injEq] at h
                        exact absurd (key h.1 (by omega) (by omega)) (by omega))
      · rw [if_neg h2'] at h
        simp only [List.cons_append, List.nil_append, List.cons.injEq] at h
        exact absurd (key h.1 (by omega) (by omega)) (by omega)
  · by_cases h2 : r < 0x800
    · rw [if_pos (by omega), if_neg h1, if_pos h2] at h
      by_cases h1' : r' < 0x80
      · rw [if_pos (by omega), if_pos h1'] at h
        simp only [List.cons_append, List.nil_append, List.cons.injEq] at h
        exact absurd (key h.1 (by omega) (by omega)) (by omega)
      · by_cases h2' : r' < 0x800
        · rw [if_pos (by omega), if_neg h1', if_pos h2'] at h
          simp only [List.cons_append, List.nil_append, List.cons.injEq] at h
          have e1 := key h.1 (by omega) (by omega)
          have e2 := key h.2.1 (by omega) (by omega)
          exact ⟨by omega, h.2.2⟩
        · by_cases h3' : r' < 0x10000
          · rw [if_pos h3', if_neg h1', if_neg h2'] at h
            simp only [List.cons_append, List.nil_append, List.cons.injEq] at h
            exact absurd (key h.1 (by omega) (by omega)) (by omega)
          · rw [if_neg h3'] at h
            simp only [List.cons_append, List.nil_append, List.cons.injEq] at h
            exact absurd (key h.1 (by omega) (by omega)) (by omega)
    · by_cases h3 : r < 0x10000
      · rw [if_pos h3, if_neg h1, if_neg h2] at h
        by_cases h1' : r' < 0x80
        · rw [if_pos (by omega), if_pos h1'] at h
          simp only [List.cons_append, List.nil_append, List.cons.injEq] at h
          exact absurd (key h.1 (by omega) (by omega)) (by omega)
        · by_cases h2' : r' < 0x800
          · rw [if_pos (by omega), if_neg h1', if_pos h2'] at h
            simp only [List.cons_append, List.nil_append, List.cons.injEq] at h
            exact absurd (key h.1 (by omega) (by omega)) (by omega)
          · by_cases h3' : r' < 0x10000
            · rw [if_pos h3', if_neg h1', if_neg h2'] at h
              simp only [List.cons_append, List.nil_append, List.cons.injEq] at h
              have e1 := key h.1 (by omega) (by omega)
              have e2 := key h.2.1 (by omega) (by omega)
              have e3 := key h.2.2.1 (by omega) (by omega)
              exact ⟨by omega, h.2.2.2⟩
            · rw [if_neg h3'] at h
              simp only [List.cons_append, List.nil_append, List.cons.injEq] at h
              exact absurd (key h.1 (by omega) (by omega)) (by omega)
      · rw [if_neg h3] at h
        by_cases h1' : r' < 0x80
        · rw [if_pos (by omega), if_pos h1'] at h
          simp only [List.cons_append, List.nil_append, List.cons.injEq] at h
          exact absurd (key h.1 (by omega) (by omega)) (by omega)
        · by_cases h2' : r' < 0x800
          · rw [if_pos (by omega), if_neg h1', if_pos h2'] at h
            simp only [List.cons_append, List.nil_append, List.cons.injEq] at h
            exact absurd (key h.1 (by omega) (by omega)) (by omega)
          · by_cases h3' : r' < 0x10000
            · rw [if_pos h3', if_neg h1', if_neg h2'] at h
              simp only [List.cons_append, List.nil_append, List.cons.injEq] at h
              exact absurd (key h.1 (by omega) (by omega)) (by omega)
            · rw [if_neg h3'] at h
              simp only [List.cons_append, List.nil_append, List.cons.injEq] at h
              have e1 := key h.1 (by omega) (by omega)
              have e2 := key h.2.1 (by omega) (by omega)
              have e3 := key h.2.2.1 (by omega) (by omega)
              have e4 := key h.2.2.2.1 (by omega) (by omega)
              exact ⟨by omega, h.2.2.2.2⟩

theorem utf8All_ne_nil (r : Nat) : utf8All r ≠ [] := by
  unfold utf8All utf8
  split
  · split
    · simp
    · split <;> simp
  · simp

/-- No encoding of a character other than `c` begins with the ASCII character `c`. -/
theorem utf8All_head {r : Nat} {c : Nat} {x y : Bytes} (hr : Scalar r) (hc : c < 128) (h : utf8All r ++ x = UInt8.ofNat c :: y) :
    r = c := by
  have : utf8All r ++ x = utf8All c ++ y := by rw [utf8All_ascii hc]; exact h
  exact (utf8All_prefix (by unfold Scalar at hr; omega) (by omega) this).1

theorem scalar_lt {r : Nat} (h : Scalar r) : r < 0x110000 := by unfold Scalar at h; omega

theorem Piece.ne_nil {u v : Bytes} (h : Piece u v) : u ≠ [] := by
  cases h with
  | char => exact utf8All_ne_nil _
  | simple => simp
  | byte => simp
  | little => simp
  | big => simp

theorem escapes_not {c v : UInt8} (h : (c, v) ∈ simpleEscapes) : c ≠ 120 ∧ c ≠ 117 ∧ c ≠ 85 := by
  simp only [simpleEscapes, List.mem_cons, Prod.mk.injEq, List.not_mem_nil, or_false] at h
  rcases h with h | h | h | h | h | h | h | h | h <;> (obtain ⟨rfl, rfl⟩ := h; decide)

theorem escapes_fun {c v v' : UInt8} (h : (c, v) ∈ simpleEscapes) (h' : (c, v') ∈ simpleEscapes) : v = v' := by
  simp only [simpleEscapes, List.mem_cons, Prod.mk.injEq, List.not_mem_nil, or_false] at h h'
  rcases h with h | h | h | h | h | h | h | h | h <;>
    (obtain ⟨rfl, rfl⟩ := h; simp at h'; exact h'.symm)

/-- A piece is a character that is not `\`, or begins with `\`. -/
theorem Piece.shape {u v : Bytes} (h : Piece u v) :
    (∃ r, Scalar r ∧ r ≠ 34 ∧ r ≠ 92 ∧ u = utf8All r ∧ v = u) ∨
    ∃ c ds, u = 92 :: c :: ds ∧
      ((c, v) ∈ simpleEscapes.map (fun p => (p.1, [p.2])) ∧ ds = [] ∨
       c = 120 ∧ ds.length = 2 ∧ v = [UInt8.ofNat (hexVal ds)] ∨
       c = 117 ∧ ds.length = 4 ∧ v = utf8All (hexVal ds) ∨
       c = 85 ∧ ds.length = 8 ∧ v = utf8All (hexVal ds)) := by
  cases h with
  | char hs h10 h34 h92 => exact Or.inl ⟨_, hs, h34, h92, rfl, rfl⟩
  | @simple c v h => exact Or.inr ⟨c, [], rfl, Or.inl ⟨List.mem_map.mpr ⟨(c, v), h, rfl⟩, rfl⟩⟩
  | @byte ds h2 hx => exact Or.inr ⟨120, ds, rfl, Or.inr (Or.inl ⟨rfl, h2, rfl⟩)⟩
  | @little ds h2 hx => exact Or.inr ⟨117, ds, rfl, Or.inr (Or.inr (Or.inl ⟨rfl, h2, rfl⟩))⟩
  | @big ds h2 hx => exact Or.inr ⟨85, ds, rfl, Or.inr (Or.inr (Or.inr ⟨rfl, h2, rfl⟩))⟩

theorem Piece.not_quote {u v x y : Bytes} (h : Piece u v) : u ++ x ≠ 34 :: y := by
  intro he
  rcases h.shape with ⟨r, hs, h34, _, rfl, _⟩ | ⟨c, ds, rfl, _⟩
  · exact h34 (utf8All_head (c := 34) hs (by decide) he)
  · simp at he

theorem Piece.prefixFree {u v u' v' x x' : Bytes} (h : Piece u v) (h' : Piece u' v') (he : u ++ x = u' ++ x') :
    u = u' ∧ v = v' ∧ x = x' := by
  rcases h.shape with ⟨r, hs, h34, h92, rfl, rfl⟩ | ⟨c, ds, rfl, hk⟩
  · rcases h'.shape with ⟨r', hs', h34', h92', rfl, rfl⟩ | ⟨c, ds, rfl, hk⟩
    · obtain ⟨rfl, rfl⟩ := utf8All_prefix (scalar_lt hs) (scalar_lt hs') he
      exact ⟨rfl, rfl, rfl⟩
    · exact absurd (utf8All_head (c := 92) hs (by decide) he) h92
  · rcases h'.shape with ⟨r', hs', h34', h92', rfl, rfl⟩ | ⟨c', ds', rfl, hk'⟩
    · exact absurd (utf8All_head (c := 92) hs' (by decide) he.symm) h92'
    · simp only [List.cons_append, List.cons.injEq, true_and] at he
      obtain ⟨rfl, he⟩ := he
      have hsimple : ∀ {c : UInt8} {v : Bytes}, (c, v) ∈ simpleEscapes.map (fun p => (p.1, [p.2])) →
          ∃ w, v = [w] ∧ (c, w) ∈ simpleEscapes := by
        intro c v hv
        obtain ⟨p, hp, he⟩ := List.mem_map.mp hv
        simp only [Prod.mk.injEq] at he
        exact ⟨p.2, he.2.symm, by rw [← he.1]; exact hp⟩
      rcases hk with ⟨hm, rfl⟩ | hk
      · obtain ⟨w, rfl, hw⟩ := hsimple hm
        have hne := escapes_not hw
        rcases hk' with ⟨hm', rfl⟩ | ⟨rfl, _⟩ | ⟨rfl, _⟩ | ⟨rfl, _⟩
        · obtain ⟨w', rfl, hw'⟩ := hsimple hm'
          rw [escapes_fun hw hw']
          exact ⟨rfl, rfl, he⟩
        · exact absurd rfl hne.1
        · exact absurd rfl hne.2.1
        · exact absurd rfl hne.2.2
      · have hc : c = 120 ∨ c = 117 ∨ c = 85 := by
          rcases hk with h | h | h
          · exact Or.inl h.1
          · exact Or.inr (Or.inl h.1)
          · exact Or.inr (Or.inr h.1)
        rcases hk' with ⟨hm', rfl⟩ | hk'
        · obtain ⟨w, rfl, hw⟩ := hsimple hm'
          have hne := escapes_not hw
          rcases hc with rfl | rfl | rfl
          · exact absurd rfl hne.1
          · exact absurd rfl hne.2.1
          · exact absurd rfl hne.2.2
        · have hlen : ds.length = ds'.length := by
            rcases hk with ⟨h1, h2, h3⟩ | ⟨h1, h2, h3⟩ | ⟨h1, h2, h3⟩ <;>
            rcases hk' with ⟨h1', h2', h3'⟩ | ⟨h1', h2', h3'⟩ | ⟨h1', h2', h3'⟩ <;>
            first
            | omega
            | (rw [h1] at h1'; exact absurd h1' (by decide))
          obtain ⟨rfl, rfl⟩ := List.append_inj he hlen
          refine ⟨rfl, ?_, rfl⟩
          rcases hk with ⟨h1, h2, h3⟩ | ⟨h1, h2, h3⟩ | ⟨h1, h2, h3⟩ <;>
          rcases hk' with ⟨h1', h2', h3'⟩ | ⟨h1', h2', h3'⟩ | ⟨h1', h2', h3'⟩ <;>
          first
          | (exfalso; omega)
          | (rw [h3, h3'])

/-- What is inside a literal ends at its closing quote, and stands for one string. -/
theorem Inside.unique {t b t' b' x x' : Bytes} (h : Inside t b) (h' : Inside t' b')
    (he : t ++ 34 :: x = t' ++ 34 :: x') : t = t' ∧ b = b' ∧ x = x' := by
  induction h generalizing t' b' with
  | nil =>
    cases h' with
    | nil => simp at he; exact ⟨rfl, rfl, he⟩
    | cons hp _ =>
      rw [List.append_assoc] at he
      exact absurd he.symm hp.not_quote
  | cons hp hi ih =>
    cases h' with
    | nil =>
      rw [List.append_assoc] at he
      exact absurd he hp.not_quote
    | cons hp' hi' =>
      rw [List.append_assoc, List.append_assoc] at he
      obtain ⟨rfl, rfl, he⟩ := hp.prefixFree hp' he
      obtain ⟨rfl, rfl, rfl⟩ := ih hi' he
      exact ⟨rfl, rfl, rfl⟩

/-- A literal stands for one string, and nothing needs to separate it from what follows. -/
theorem Literal.unique {l b l' b' x x' : Bytes} (h : Literal l b) (h' : Literal l' b') (he : l ++ x = l' ++ x') :
    l = l' ∧ b = b' ∧ x = x' := by
  obtain ⟨t, rfl, ht⟩ := h
  obtain ⟨t', rfl, ht'⟩ := h'
  simp only [List.append_assoc, List.cons_append, List.nil_append, List.cons.injEq, true_and] at he
  obtain ⟨rfl, rfl, rfl⟩ := ht.unique ht' he
  exact ⟨rfl, rfl, rfl⟩

end Syslog5424.Spec
