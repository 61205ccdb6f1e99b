import Verif.Spec.Framing
import Verif.Spec.Codec

/-!
# The framing of a byte stream is unique
-/

namespace ImapFlow

variable {ε μ : Type} {F : Framing ε μ}

theorem IsLine.ne_nil {l : Bytes} (h : IsLine l) : l ≠ [] := by
  obtain ⟨b, rfl, -⟩ := h; simp

/-- Two lines at the start of the same bytes are equal. -/
theorem IsLine.unique {l l' X : Bytes} (h : IsLine l) (h' : IsLine l') (hp : l <+: X) (hp' : l' <+: X) :
    l = l' := by
  obtain ⟨b, rfl, hb⟩ := h
  obtain ⟨b', rfl, hb'⟩ := h'
  obtain ⟨r, rfl⟩ := hp
  obtain ⟨r', hr⟩ := hp'
  have key : ∀ (b b' : Bytes) r r', LF ∉ b → LF ∉ b' → b ++ [LF] ++ r = b' ++ [LF] ++ r' → b = b' := by
    intro b
    induction b with
    | nil =>
      intro b' r r' _ hb' h
      cases b' with
      | nil => rfl
      | cons y ys =>
        simp only [List.nil_append, List.cons_append, List.cons.injEq] at h
        exact (hb' (by rw [h.1]; exact List.mem_cons_self ..)).elim
    | cons x xs ih =>
      intro b' r r' hb hb' h
      cases b' with
      | nil =>
        simp only [List.nil_append, List.cons_append, List.cons.injEq] at h
        exact (hb (by rw [← h.1]; exact List.mem_cons_self ..)).elim
      | cons y ys =>
        simp only [List.cons_append, List.cons.injEq] at h
        rw [h.1, ih ys r r' (fun hm => hb (List.mem_cons_of_mem _ hm))
          (fun hm => hb' (List.mem_cons_of_mem _ hm)) h.2]
  rw [key b b' r r' hb hb' hr.symm]

/-- A line that starts at `p` cannot start before and end after... : lines after the same prefix. -/
theorem IsLine.unique_after {p l l' X : Bytes} (h : IsLine l) (h' : IsLine l') (hp : p ++ l <+: X)
    (hp' : p ++ l' <+: X) : l = l' := by
  obtain ⟨r, rfl⟩ := hp
  obtain ⟨r', hr⟩ := hp'
  rw [List.append_assoc, List.append_assoc, List.append_cancel_left_eq] at hr
  exact h.unique h' (List.prefix_append ..) (hr ▸ List.prefix_append ..)

theorem prefix_of_le {a b X : Bytes} (ha : a <+: X) (hb : b <+: X) (h : a.length ≤ b.length) : a <+: b :=
  List.prefix_of_prefix_length_le ha hb h

theorem eq_of_prefix_le {a b : Bytes} (ha : a <+: b) (h : b.length ≤ a.length) : a = b :=
  ha.eq_of_length_le h

/-- Positions of the framing are ordered: a line start before another position is either that
position or announces a literal that ends before it. -/
theorem Announced.compare {p l q X : Bytes} (hp : Announced F p) (hl : IsLine l) (hpl : p ++ l <+: X)
    (hq : Announced F q) (hqX : q <+: X) (hle : p.length ≤ q.length) :
    p = q ∨ (CrlfOk F.relaxed l ∧ ∃ e d, F.dec (p ++ l) = .error e ∧ F.lit e = some d.length ∧
      p ++ l ++ d <+: q) := by
  have hpX : p <+: X := (List.prefix_append p l).trans hpl
  generalize hn : p.length + q.length = n
  induction n using Nat.strongRecOn generalizing p l q with
  | _ n ih =>
    cases hq with
    | nil =>
      left
      simpa using hle
    | @literal q0 l0 d0 e0 hq0 hl0 hc0 hd0 hlit0 =>
      have hq0l0 : q0 ++ l0 <+: X := (List.prefix_append _ _).trans hqX
      have hq0X : q0 <+: X := (List.prefix_append _ _).trans hq0l0
      have hl0len : 0 < l0.length := List.length_pos_iff.mpr hl0.ne_nil
      simp only [List.length_append] at hn hle
      by_cases hle0 : p.length ≤ q0.length
      · rcases ih (p.length + q0.length) (by omega) hp hl hpl hq0 hq0X hle0 hpX rfl with rfl | h
        · have : l = l0 := hl.unique_after hl0 hpl hq0l0
          subst this
          exact .inr ⟨hc0, e0, d0, hd0, hlit0, List.prefix_refl _⟩
        · obtain ⟨hc, e, d, h1, h2, h3⟩ := h
          exact .inr ⟨hc, e, d, h1, h2, h3.trans (by rw [List.append_assoc]; exact List.prefix_append _ _)⟩
      · rcases ih (q0.length + p.length) (by omega) hq0 hl0 hq0l0 hp hpX (by omega) hq0X rfl with rfl | h
        · omega
        · obtain ⟨-, e, d, h1, h2, h3⟩ := h
          rw [hd0] at h1
          cases h1
          rw [hlit0] at h2
          simp only [Option.some.injEq] at h2
          have hlen := h3.length_le
          simp only [List.length_append] at hlen
          left
          have h4 : p <+: q0 ++ l0 ++ d0 := prefix_of_le hpX hqX (by simp; omega)
          exact eq_of_prefix_le h4 (by simp; omega)

/-- `w` ends with the last line of a message: no acceptable literal follows. -/
def Complete (F : Framing ε μ) (w : Bytes) : Prop :=
  ∃ p l, w = p ++ l ∧ Announced F p ∧ IsLine l ∧
    (CrlfOk F.relaxed l → ∀ e, F.dec w = .error e → F.lit e = none)

theorem IsMessage.complete {w : Bytes} {m : μ} (h : IsMessage F w m) : Complete F w := by
  obtain ⟨p, l, rfl, ha, hl, hc, hd⟩ := h
  exact ⟨p, l, rfl, ha, hl, fun _ e he => by rw [hd] at he; cases he⟩

theorem IsUndecodable.complete {w : Bytes} {e : ε} (h : IsUndecodable F w e) : Complete F w := by
  obtain ⟨p, l, rfl, ha, hl, hc, hd, he⟩ := h
  exact ⟨p, l, rfl, ha, hl, fun _ e' he' => by rw [hd] at he'; cases he'; exact he⟩

theorem IsBadLine.complete {w : Bytes} (h : IsBadLine F w) : Complete F w := by
  obtain ⟨p, l, rfl, ha, hl, hc⟩ := h
  exact ⟨p, l, rfl, ha, hl, fun h => (hc h).elim⟩

theorem Complete.ne_nil {w : Bytes} (h : Complete F w) : w ≠ [] := by
  obtain ⟨p, l, rfl, -, hl, -⟩ := h
  simp [hl.ne_nil]

/-- There is at most one complete message at the start of a stream. -/
theorem Complete.unique {w w' X : Bytes} (h : Complete F w) (h' : Complete F w') (hX : w <+: X)
    (hX' : w' <+: X) : w = w' := by
  obtain ⟨p, l, rfl, ha, hl, hc⟩ := h
  obtain ⟨p', l', rfl, ha', hl', hc'⟩ := h'
  rcases Nat.le_total p.length p'.length with hle | hle
  · rcases ha.compare hl hX ha' ((List.prefix_append _ _).trans hX') hle with rfl | ⟨h1, e, d, h2, h3, -⟩
    · rw [hl.unique_after hl' hX hX']
    · have := hc h1 e h2
      rw [this] at h3; cases h3
  · rcases ha'.compare hl' hX' ha ((List.prefix_append _ _).trans hX) hle with rfl | ⟨h1, e, d, h2, h3, -⟩
    · rw [hl.unique_after hl' hX hX']
    · have := hc' h1 e h2
      rw [this] at h3; cases h3

/-- A stream whose first message is unfinished does not begin with a complete message. -/
theorem Complete.not_unfinished {w X : Bytes} (h : Complete F w) (hX : w <+: X) :
    ¬ IsUnfinished F X := by
  obtain ⟨p', l', rfl, ha', hl', hc'⟩ := h
  rintro (⟨p, q, rfl, ha, hq⟩ | ⟨p, l, d, e, k, rfl, ha, hl, hc, hd, hlit, hlt⟩)
  · have hpX : p <+: p ++ q := List.prefix_append _ _
    rcases Nat.le_total p'.length p.length with hle | hle
    · rcases ha'.compare hl' hX ha hpX hle with rfl | ⟨h1, e, d, h2, h3, -⟩
      · have : l' <+: q := by
          obtain ⟨r, hr⟩ := hX
          rw [List.append_assoc, List.append_cancel_left_eq] at hr
          exact ⟨r, hr⟩
        obtain ⟨b, rfl, -⟩ := hl'
        exact hq (this.subset (by simp))
      · have := hc' h1 e h2
        rw [this] at h3; cases h3
    · -- a line ends after `p` inside `q`
      obtain ⟨b, rfl, -⟩ := hl'
      obtain ⟨r, hr⟩ := hX
      have h1 : q = (p' ++ (b ++ [LF]) ++ r).drop p.length := by rw [hr]; simp
      rw [List.append_assoc, List.drop_append_of_le_length hle] at h1
      apply hq
      rw [h1]
      simp
  · have hplX : p ++ l <+: p ++ l ++ d := List.prefix_append _ _
    rcases Nat.le_total p'.length p.length with hle | hle
    · rcases ha'.compare hl' hX ha ((List.prefix_append _ _).trans hplX) hle with
        rfl | ⟨h1, e, d, h2, h3, -⟩
      · have : l' = l := hl'.unique_after hl hX hplX
        subst this
        have := hc' hc e hd
        rw [this] at hlit; cases hlit
      · have := hc' h1 e h2
        rw [this] at h3; cases h3
    · rcases ha.compare hl hplX ha' ((List.prefix_append _ _).trans hX) hle with
        rfl | ⟨h1, e', d', h2, h3, h4⟩
      · have : l' = l := hl'.unique_after hl hX hplX
        subst this
        have := hc' hc e hd
        rw [this] at hlit; cases hlit
      · rw [hd] at h2; cases h2
        rw [hlit] at h3
        simp only [Option.some.injEq] at h3
        have h5 := h4.length_le
        have h6 := hX.length_le
        simp only [List.length_append] at h5 h6
        omega

theorem IsUnfinished.announced_or {w : Bytes} (h : IsUnfinished F w) :
    ∃ p, Announced F p ∧ p <+: w := by
  rcases h with ⟨p, q, rfl, ha, -⟩ | ⟨p, l, d, e, k, rfl, ha, -⟩
  · exact ⟨p, ha, List.prefix_append ..⟩
  · exact ⟨p, ha, by rw [List.append_assoc]; exact List.prefix_append ..⟩

/-- A prefix of an announced beginning that ends with LF is not decodable. -/
theorem Announced.no_decode {lit : ε → Option Nat} (hL : LawfulDecoder F.dec lit)
    (hlit : ∀ e k, F.lit e = some k → lit e = some k) {p c x rem : Bytes} {m : μ} (ha : Announced F p)
    (hp : p = c ++ [LF] ++ x) : F.dec (c ++ [LF]) ≠ .ok (rem, m) := by
  induction ha generalizing x with
  | nil => simp at hp
  | @literal p l d e ha hl hc hd he ih =>
    intro hdec
    have hc1 : c ++ [LF] <+: p ++ l ++ d := ⟨x, hp.symm⟩
    have hpl : p ++ l <+: p ++ l ++ d := List.prefix_append ..
    rcases Nat.lt_or_ge (p ++ l).length (c ++ [LF]).length with hlt | hge
    · -- ends inside the literal
      obtain ⟨y, hy⟩ := prefix_of_le hpl hc1 (by omega)
      rw [← hy] at hdec hc1
      have h1 := hL.literal _ _ _ _ _ _ hd (hlit _ _ he) hdec
      have h2 := hc1.length_le
      simp only [List.length_append] at h2
      omega
    · have hcpl := prefix_of_le hc1 hpl hge
      rcases Nat.lt_or_ge p.length (c ++ [LF]).length with hlt | hge'
      · -- ends inside the line
        obtain ⟨y, hy⟩ := prefix_of_le ((List.prefix_append p l).trans hpl) hc1 (by omega)
        obtain ⟨b, rfl, hb⟩ := hl
        have hyl : y <+: b ++ [LF] := by
          rw [← hy] at hcpl
          obtain ⟨r, hr⟩ := hcpl
          rw [List.append_assoc, List.append_cancel_left_eq] at hr
          exact ⟨r, hr⟩
        have hyne : y ≠ [] := by
          rintro rfl
          simp only [List.append_nil] at hy
          rw [hy] at hlt; omega
        have hylast : ∃ y', y = y' ++ [LF] := by
          rcases List.eq_nil_or_concat y with rfl | ⟨y', z, rfl⟩
          · exact (hyne rfl).elim
          · refine ⟨y', ?_⟩
            have := congrArg List.getLast? hy
            simp only [List.concat_eq_append, ← List.append_assoc, List.getLast?_concat,
              Option.some.injEq] at this
            simp [this]
        obtain ⟨y', rfl⟩ := hylast
        have hlen : (y' ++ [LF]).length = (b ++ [LF]).length := by
          rcases Nat.lt_or_ge (y' ++ [LF]).length (b ++ [LF]).length with h | h
          · exfalso
            have : y' ++ [LF] <+: b := prefix_of_le hyl (List.prefix_append ..) (by simp at h ⊢; omega)
            exact hb (this.subset (by simp))
          · exact Nat.le_antisymm hyl.length_le h
        have := eq_of_prefix_le hyl (by omega)
        rw [← hy, this, hd] at hdec
        cases hdec
      · obtain ⟨y, hy⟩ := prefix_of_le hc1 ((List.prefix_append p l).trans hpl) hge'
        exact ih hy.symm hdec

/-- The assertion in `progress_line` holds: a decoded message uses up the line. -/
theorem decode_all {lit : ε → Option Nat} (hL : LawfulDecoder F.dec lit)
    (hlit : ∀ e k, F.lit e = some k → lit e = some k) {p l rem : Bytes} {m : μ} (ha : Announced F p)
    (hl : IsLine l) (hd : F.dec (p ++ l) = .ok (rem, m)) : rem = [] := by
  obtain ⟨c, h1, h2⟩ := hL.consumes _ _ _ hd
  have hc : c ++ [LF] <+: p ++ l := ⟨rem, h1.symm⟩
  rcases Nat.lt_or_ge p.length (c ++ [LF]).length with hlt | hge
  · obtain ⟨y, hy⟩ := prefix_of_le (List.prefix_append p l) hc (by omega)
    obtain ⟨b, rfl, hb⟩ := hl
    have hyl : y ++ rem = b ++ [LF] := by
      rw [← hy, List.append_assoc, List.append_cancel_left_eq] at h1
      exact h1.symm
    rcases List.eq_nil_or_concat y with rfl | ⟨y', z, rfl⟩
    · simp only [List.append_nil] at hy
      rw [hy] at hlt; omega
    · have hz := congrArg List.getLast? hy
      simp only [List.concat_eq_append, ← List.append_assoc, List.getLast?_concat,
        Option.some.injEq] at hz
      subst hz
      rcases List.eq_nil_or_concat rem with rfl | ⟨rem', z', rfl⟩
      · rfl
      · exfalso
        simp only [List.concat_eq_append] at hyl
        rw [← List.append_assoc] at hyl
        have h3 := List.append_inj_left' hyl rfl
        exact hb (by rw [← h3]; simp)
  · obtain ⟨y, hy⟩ := prefix_of_le hc (List.prefix_append p l) hge
    exact (ha.no_decode hL hlit hy.symm h2).elim

end ImapFlow
