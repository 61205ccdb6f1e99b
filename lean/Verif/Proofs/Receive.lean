import Verif.Model.Client
import Verif.Spec.Framing

/-!
# Lemmas about `ReceiveState`
-/

namespace ImapFlow

variable {ε μ : Type}

/-! ## First line feed in a byte string -/

theorem split_at_lf (w : Bytes) : (LF ∉ w) ∨ ∃ b rest, w = b ++ LF :: rest ∧ LF ∉ b := by
  by_cases h : LF ∈ w
  · right
    obtain ⟨b, rest, hw, hb⟩ := List.append_of_mem h |>.elim fun b ⟨rest, hw⟩ => by
      exact List.eq_append_cons_of_mem h
    exact ⟨b, rest, hw, hb⟩
  · exact .inl h

theorem findIdx_lf_append {b rest : Bytes} (h : LF ∉ b) :
    (b ++ LF :: rest).findIdx? (· == LF) = some b.length := by
  induction b with
  | nil => simp [List.findIdx?_cons]
  | cons x xs ih =>
    simp only [List.mem_cons, not_or] at h
    have : (x == LF) = false := by simp; exact fun e => h.1 e.symm
    simp [List.findIdx?_cons, this, ih h.2]

theorem findIdx_lf_none {w : Bytes} (h : LF ∉ w) : w.findIdx? (· == LF) = none := by
  rw [List.findIdx?_eq_none_iff]
  intro x hx
  simp only [beq_eq_false_iff_ne, ne_eq]
  rintro rfl
  exact h hx

theorem findCrlf_none {w : Bytes} {n : Nat} {relaxed : Bool} (hn : n ≤ w.length) (h : LF ∉ w) :
    findCrlf w n relaxed = .ok none := by
  unfold findCrlf
  rw [if_neg (by omega), findIdx_lf_none (fun hm => h (List.mem_of_mem_drop hm))]

/-- Whether the line `b ++ [LF]` has a forbidden ending. -/
def badEnding (relaxed : Bool) (b : Bytes) : Bool := !relaxed && b.getLast? != some CR

theorem findCrlf_some {b rest : Bytes} {n : Nat} {relaxed : Bool} (hn : n ≤ b.length) (h : LF ∉ b) :
    findCrlf (b ++ LF :: rest) n relaxed =
      .ok (some { lfPosition := b.length, expectedCrlfGotLf := badEnding relaxed b }) := by
  unfold findCrlf
  rw [if_neg (by simp; omega), List.drop_append_of_le_length hn,
    findIdx_lf_append (fun hm => h (List.mem_of_mem_drop hm))]
  simp only [List.length_drop, Except.ok.injEq, Option.some.injEq, FindCrlfResult.mk.injEq, badEnding]
  refine ⟨by omega, ?_⟩
  have e1 : n + (b.length - n) = b.length := by omega
  rw [e1]
  congr 1
  rcases List.eq_nil_or_concat b with rfl | ⟨b', x, rfl⟩
  · simp [LF, CR]
  · by_cases hx : x = CR
    · simp [List.getD, hx]
    · have : some x ≠ some CR := by simpa using hx
      simp [List.getD, bne]

theorem badEnding_iff {relaxed : Bool} {b : Bytes} :
    badEnding relaxed b = true ↔ ¬ CrlfOk relaxed (b ++ [LF]) := by
  unfold badEnding CrlfOk
  rcases List.eq_nil_or_concat b with rfl | ⟨b', x, rfl⟩
  · cases relaxed <;> simp
    intro x hx
    have := congrArg List.length hx
    simp at this
  · cases relaxed
    · simp only [Bool.not_false, Bool.true_and, Bool.false_eq_true, false_or, not_exists]
      simp only [List.concat_eq_append, List.getLast?_append, List.getLast?_singleton,
        Option.some_or, bne_iff_ne, ne_eq, Option.some.injEq]
      constructor
      · intro hx c hc
        have h2 : b' ++ [x] ++ [LF] = (c ++ [CR]) ++ [LF] := by simpa using hc
        have h3 := List.append_cancel_right h2
        exact hx (by simpa using (List.append_inj' h3 rfl).2)
      · intro hc hx
        exact hc b' (by simp [hx])
    · simp

namespace ReceiveState

/-! ## Basic facts -/

/-- The bytes that may still be searched for a line ending. -/
def window (s : ReceiveState) : Bytes := (s.readBuffer.take s.maxReadableBytes).drop s.seenBytes

theorem maxReadable_enqueue (s : ReceiveState) (x : Bytes) :
    s.maxReadableBytes ≤ (s.enqueueInput x).maxReadableBytes := by
  unfold maxReadableBytes enqueueInput
  cases s.maxMessageSize <;> simp <;> omega

theorem window_enqueue {s : ReceiveState} (x : Bytes) (h : s.seenBytes ≤ s.maxReadableBytes) :
    ∃ y, (s.enqueueInput x).window = s.window ++ y := by
  have h1 := s.maxReadable_enqueue x
  have h2 := s.maxReadableBytes_le
  refine ⟨((s.readBuffer ++ x).drop s.maxReadableBytes).take
    ((s.enqueueInput x).maxReadableBytes - s.maxReadableBytes), ?_⟩
  unfold window
  have e1 : (s.enqueueInput x).readBuffer = s.readBuffer ++ x := rfl
  have e2 : (s.enqueueInput x).seenBytes = s.seenBytes := rfl
  rw [e1, e2]
  have e3 : (s.readBuffer ++ x).take (s.enqueueInput x).maxReadableBytes =
      s.readBuffer.take s.maxReadableBytes ++ ((s.readBuffer ++ x).drop s.maxReadableBytes).take
        ((s.enqueueInput x).maxReadableBytes - s.maxReadableBytes) := by
    conv => lhs; rw [← Nat.add_sub_of_le h1]
    rw [List.take_add]
    congr 1
    rw [List.take_append_of_le_length h2]
  rw [e3, List.drop_append_of_le_length (by simp; omega)]

theorem window_length (s : ReceiveState) : s.window.length = s.maxReadableBytes - s.seenBytes := by
  have := s.maxReadableBytes_le
  simp [window]; omega

/-- Condition under which the already-seen part of the line is consistent. -/
def LineOk (s : ReceiveState) (n : Nat) : Prop :=
  s.seenBytes + n ≤ s.maxReadableBytes ∧ LF ∉ s.window.take n

theorem progressLine_none {dec : Decoder ε μ} {s : ReceiveState} {n : Nat} (hn : s.LineOk n)
    (h : LF ∉ s.window) :
    progressLine dec s n =
      if some s.maxReadableBytes = s.maxMessageSize then
        .ok ({ s with nextFragment := .line (s.readBuffer.length - s.seenBytes),
                      seenBytes := s.maxReadableBytes }, .error (.error .messageTooLong))
      else
        .ok ({ s with nextFragment := .line (s.readBuffer.length - s.seenBytes) },
             .error (.io .needMoreInput)) := by
  obtain ⟨h1, -⟩ := hn
  unfold progressLine
  simp only
  rw [if_neg (by omega)]
  have : findCrlf ((s.readBuffer.take s.maxReadableBytes).drop s.seenBytes) n s.crlfRelaxed = .ok none :=
    findCrlf_none (by have := s.window_length; unfold window at this; omega) h
  rw [this]

/-- The state after the line `b ++ [LF]` was found. -/
def afterLine (s : ReceiveState) (b : Bytes) : ReceiveState :=
  { s with seenBytes := s.seenBytes + (b.length + 1), nextFragment := .line 0 }

theorem progressLine_some {dec : Decoder ε μ} {s : ReceiveState} {n : Nat} {b rest : Bytes}
    (hn : s.LineOk n) (hw : s.window = b ++ LF :: rest) (hb : LF ∉ b) :
    progressLine dec s n =
      if badEnding s.crlfRelaxed b then .ok (s.afterLine b, .error (.error .expectedCrlfGotLf))
      else
        match dec (s.readBuffer.take (s.seenBytes + (b.length + 1))) with
        | .ok (remaining, message) =>
          if remaining.isEmpty then .ok (s.afterLine b, .ok message) else .error .assertFailed
        | .error e => .ok (s.afterLine b, .error (.error (.decodingFailure e))) := by
  obtain ⟨h1, h2⟩ := hn
  have hnb : n ≤ b.length := by
    apply Nat.le_of_not_lt
    intro hlt
    apply h2
    rw [hw, List.take_append]
    have : n - b.length = (n - b.length - 1) + 1 := by omega
    rw [this]
    simp
  unfold progressLine
  simp only
  rw [if_neg (by omega)]
  have : findCrlf ((s.readBuffer.take s.maxReadableBytes).drop s.seenBytes) n s.crlfRelaxed =
      .ok (some { lfPosition := b.length, expectedCrlfGotLf := badEnding s.crlfRelaxed b }) := by
    have := findCrlf_some (rest := rest) (relaxed := s.crlfRelaxed) hnb hb
    rw [← hw] at this
    exact this
  rw [this]
  rfl

/-! ## What one call of `next` can do -/

/-- The receive state is in the middle of a message as described by `Spec/Framing.lean`. -/
def Reading (F : Framing ε μ) (s : ReceiveState) : Prop :=
  s.crlfRelaxed = F.relaxed ∧ s.seenBytes ≤ s.maxReadableBytes ∧
  match s.nextFragment with
  | .line n => s.LineOk n ∧ Announced F (s.readBuffer.take s.seenBytes)
  | .literal k => ∃ p l e, s.readBuffer.take s.seenBytes = p ++ l ∧ Announced F p ∧ IsLine l ∧
      CrlfOk F.relaxed l ∧ F.dec (p ++ l) = .error e ∧ F.lit e = some k

/-- The state positioned after `n` seen bytes at the start of a line. -/
def atLine (s : ReceiveState) (n : Nat) : ReceiveState :=
  { s with seenBytes := n, nextFragment := .line 0 }

/-- The position at which the next line starts. -/
def resumeAt (s : ReceiveState) : Nat :=
  match s.nextFragment with
  | .line _ => s.seenBytes
  | .literal k => s.seenBytes + k

/-- The line that ends at position `n` of the buffer. -/
structure LineAt (F : Framing ε μ) (s : ReceiveState) (n : Nat) (p l : Bytes) : Prop where
  lt : s.seenBytes < n
  le_max : n ≤ s.maxReadableBytes
  take_eq : s.readBuffer.take n = p ++ l
  announced : Announced F p
  line : IsLine l
  start : p.length = s.resumeAt

/-- All possible outcomes of `next`, described with the declarative framing. -/
inductive NextOutcome (F : Framing ε μ) (s : ReceiveState) :
    Res ReceiveState (ReceiveError ε) μ → Prop
  | message {n : Nat} {p l : Bytes} {m : μ} : LineAt F s n p l → CrlfOk F.relaxed l →
      F.dec (p ++ l) = .ok ([], m) → NextOutcome F s (.ok (s.atLine n, .ok m))
  | failure {n : Nat} {p l : Bytes} {e : ε} : LineAt F s n p l → CrlfOk F.relaxed l →
      F.dec (p ++ l) = .error e →
      NextOutcome F s (.ok (s.atLine n, .error (.error (.decodingFailure e))))
  | badLine {n : Nat} {p l : Bytes} : LineAt F s n p l → ¬ CrlfOk F.relaxed l →
      NextOutcome F s (.ok (s.atLine n, .error (.error .expectedCrlfGotLf)))
  | tooLong {s1 : ReceiveState} : some s.maxReadableBytes = s.maxMessageSize →
      s1.crlfRelaxed = s.crlfRelaxed → s1.maxMessageSize = s.maxMessageSize →
      s1.readBuffer = s.readBuffer → s1.seenBytes = s.maxReadableBytes →
      IsUnfinished F (s.readBuffer.take s.maxReadableBytes) →
      LF ∉ (s.readBuffer.take s.maxReadableBytes).drop s.resumeAt →
      NextOutcome F s (.ok (s1, .error (.error .messageTooLong)))
  | needMore {s1 : ReceiveState} : some s.maxReadableBytes ≠ s.maxMessageSize →
      s1.maxMessageSize = s.maxMessageSize →
      s1.readBuffer = s.readBuffer → Reading F s1 →
      IsUnfinished F s.readBuffer → s1.resumeAt = s.resumeAt → s.seenBytes ≤ s1.seenBytes →
      LF ∉ s.readBuffer.drop s.resumeAt →
      NextOutcome F s (.ok (s1, .error (.io .needMoreInput)))
  | assertFailed {n : Nat} {p l rem : Bytes} {m : μ} : LineAt F s n p l → CrlfOk F.relaxed l →
      F.dec (p ++ l) = .ok (rem, m) → rem ≠ [] → NextOutcome F s (.error .assertFailed)

theorem maxReadable_eq_length {s : ReceiveState} (h : some s.maxReadableBytes ≠ s.maxMessageSize) :
    s.maxReadableBytes = s.readBuffer.length := by
  unfold maxReadableBytes at *
  split
  · rfl
  · rename_i m hm
    simp only [hm, ne_eq, Option.some.injEq] at h
    omega

theorem take_seen_window (s : ReceiveState) (h : s.seenBytes ≤ s.maxReadableBytes) :
    s.readBuffer.take s.seenBytes ++ s.window = s.readBuffer.take s.maxReadableBytes := by
  unfold window
  have : s.readBuffer.take s.seenBytes = (s.readBuffer.take s.maxReadableBytes).take s.seenBytes := by
    rw [List.take_take, Nat.min_eq_left h]
  rw [this, List.take_append_drop]

theorem progressLine_outcome {F : Framing ε μ} {s : ReceiveState} {n : Nat}
    (hfr : s.nextFragment = .line n) (hr : s.crlfRelaxed = F.relaxed) (hn : s.LineOk n)
    (ha : Announced F (s.readBuffer.take s.seenBytes)) :
    NextOutcome F s (progressLine F.dec s n) := by
  have hres : s.resumeAt = s.seenBytes := by unfold resumeAt; rw [hfr]
  have hle : s.seenBytes ≤ s.maxReadableBytes := by have := hn.1; omega
  have hml := s.maxReadableBytes_le
  have htw := s.take_seen_window hle
  rcases split_at_lf s.window with hw | ⟨b, rest, hw, hb⟩
  · rw [progressLine_none hn hw]
    have hu : IsUnfinished F (s.readBuffer.take s.maxReadableBytes) :=
      .inl ⟨_, _, htw.symm, ha, hw⟩
    have hno : LF ∉ (s.readBuffer.take s.maxReadableBytes).drop s.resumeAt := by rw [hres]; exact hw
    split
    · rename_i hmax
      exact .tooLong hmax rfl rfl rfl rfl hu hno
    · rename_i hmax
      have hml := maxReadable_eq_length hmax
      refine .needMore hmax rfl rfl ?_ (by rw [hml, List.take_length] at hu; exact hu) hres.symm
        (Nat.le_refl _) (by rw [hml, List.take_length] at hno; exact hno)
      refine ⟨hr, hle, ⟨?_, ?_⟩, ha⟩
      · show s.seenBytes + (s.readBuffer.length - s.seenBytes) ≤ s.maxReadableBytes
        omega
      · exact fun hmem => hw (List.mem_of_mem_take hmem)
  · rw [progressLine_some hn hw hb]
    have hwl := s.window_length
    rw [hw] at hwl
    simp only [List.length_append, List.length_cons] at hwl
    have htake : s.readBuffer.take (s.seenBytes + (b.length + 1)) =
        s.readBuffer.take s.seenBytes ++ (b ++ [LF]) := by
      have h1 : s.readBuffer.take (s.seenBytes + (b.length + 1)) =
          (s.readBuffer.take s.maxReadableBytes).take (s.seenBytes + (b.length + 1)) := by
        rw [List.take_take, Nat.min_eq_left (by omega)]
      rw [h1, ← htw, hw, List.take_append]
      have h2 : (s.readBuffer.take s.seenBytes).length = s.seenBytes := by simp; omega
      rw [h2, Nat.add_sub_cancel_left, List.take_of_length_le (by omega), List.take_append,
        List.take_of_length_le (by omega : b.length ≤ b.length + 1)]
      simp
    have hat : LineAt F s (s.seenBytes + (b.length + 1)) (s.readBuffer.take s.seenBytes) (b ++ [LF]) :=
      ⟨by omega, by omega, htake, ha, ⟨b, rfl, hb⟩, by rw [hres, List.length_take]; omega⟩
    rw [htake]
    split
    · rename_i hbad
      exact .badLine hat (by rw [← hr]; exact badEnding_iff.mp hbad)
    · rename_i hbad
      have hok : CrlfOk F.relaxed (b ++ [LF]) := by
        rw [← hr]
        exact Classical.byContradiction fun hc => hbad (badEnding_iff.mpr hc)
      split
      · rename_i rem m hdec
        split
        · rename_i hrem
          rw [List.isEmpty_iff] at hrem
          subst hrem
          exact .message hat hok hdec
        · rename_i hrem
          exact .assertFailed hat hok hdec (by simpa using hrem)
      · rename_i e hdec
        exact .failure hat hok hdec

theorem progressLiteral_short {s : ReceiveState} {k : Nat} (hle : s.seenBytes ≤ s.maxReadableBytes)
    (hlt : s.maxReadableBytes - s.seenBytes < k) :
    progressLiteral ε s k =
      if some s.maxReadableBytes = s.maxMessageSize then
        .ok ({ s with seenBytes := s.maxReadableBytes }, .error (.error .messageTooLong))
      else
        .ok (s, .error (.io .needMoreInput)) := by
  unfold progressLiteral
  simp only
  rw [if_neg (by omega), if_pos hlt]

theorem progressLiteral_done {s : ReceiveState} {k : Nat} (hle : s.seenBytes ≤ s.maxReadableBytes)
    (hlt : ¬ s.maxReadableBytes - s.seenBytes < k) :
    progressLiteral ε s k =
      .ok ({ s with nextFragment := .startNewLine, seenBytes := s.seenBytes + k }, .ok ()) := by
  unfold progressLiteral
  simp only
  rw [if_neg (by omega), if_neg hlt]

theorem next_outcome {F : Framing ε μ} {s : ReceiveState} (h : Reading F s) :
    NextOutcome F s (next F.dec s) := by
  obtain ⟨hr, hle, hf⟩ := h
  have hml := s.maxReadableBytes_le
  unfold next
  split
  · rename_i n hfrag
    rw [hfrag] at hf
    exact progressLine_outcome hfrag hr hf.1 hf.2
  · rename_i k hfrag
    rw [hfrag] at hf
    obtain ⟨p, l, e, htake, hp, hl, hc, hdec, hlit⟩ := hf
    by_cases hlt : s.maxReadableBytes - s.seenBytes < k
    · have hlen : ((s.readBuffer.take s.maxReadableBytes).drop s.seenBytes).length < k := by
        simp; omega
      have hu : IsUnfinished F (s.readBuffer.take s.maxReadableBytes) :=
        .inr ⟨p, l, (s.readBuffer.take s.maxReadableBytes).drop s.seenBytes, e, k,
          by rw [← htake]; exact (s.take_seen_window hle).symm, hp, hl, hc, hdec, hlit, hlen⟩
      have hno : LF ∉ (s.readBuffer.take s.maxReadableBytes).drop s.resumeAt := by
        have hres : s.resumeAt = s.seenBytes + k := by unfold resumeAt; rw [hfrag]
        rw [List.drop_eq_nil_of_le (by simp; omega)]
        simp
      rw [progressLiteral_short hle hlt]
      by_cases hmax : some s.maxReadableBytes = s.maxMessageSize
      · rw [if_pos hmax]
        exact .tooLong hmax rfl rfl rfl rfl hu hno
      · rw [if_neg hmax]
        have hml := maxReadable_eq_length hmax
        refine .needMore hmax rfl rfl ⟨hr, hle, ?_⟩ (by rw [hml, List.take_length] at hu; exact hu) rfl
          (Nat.le_refl _) (by rw [hml, List.take_length] at hno; exact hno)
        rw [hfrag]
        exact ⟨p, l, e, htake, hp, hl, hc, hdec, hlit⟩
    · rw [progressLiteral_done hle hlt]
      let s2 : ReceiveState := { s with nextFragment := .startNewLine, seenBytes := s.seenBytes + k }
      have hmr : s2.maxReadableBytes = s.maxReadableBytes := rfl
      have hd : ((s.readBuffer.drop s.seenBytes).take k).length = k := by simp; omega
      have htake2 : s2.readBuffer.take s2.seenBytes = p ++ l ++ (s.readBuffer.drop s.seenBytes).take k := by
        show s.readBuffer.take (s.seenBytes + k) = _
        rw [List.take_add, htake]
      have ha : Announced F (s2.readBuffer.take s2.seenBytes) := by
        rw [htake2]
        exact .literal hp hl hc hdec (by rw [hd]; exact hlit)
      have hlo : s2.LineOk 0 := ⟨by show s.seenBytes + k + 0 ≤ s.maxReadableBytes; omega, by simp⟩
      have ho := progressLine_outcome (s := s2) (n := 0) rfl hr hlo ha
      have hres : s2.resumeAt = s.resumeAt := by
        unfold resumeAt
        rw [hfrag]
        rfl
      have conv : ∀ {n p l}, LineAt F s2 n p l → LineAt F s n p l := by
        intro n p l h
        refine ⟨?_, h.le_max, h.take_eq, h.announced, h.line, h.start.trans hres⟩
        have h1 := h.lt
        have : s2.seenBytes = s.seenBytes + k := rfl
        omega
      show NextOutcome F s (progressLine F.dec s2 0)
      generalize progressLine F.dec s2 0 = out at ho
      cases ho with
      | message h1 h2 h3 => exact .message (conv h1) h2 h3
      | failure h1 h2 h3 => exact .failure (conv h1) h2 h3
      | badLine h1 h2 => exact .badLine (conv h1) h2
      | tooLong h1 h2 h3 h4 h5 h6 h7 => exact .tooLong h1 h2 h3 h4 h5 h6 (hres ▸ h7)
      | needMore h1 h2 h3 h4 h5 h6 h7 h8 =>
        exact .needMore h1 h2 h3 h4 h5 (h6.trans hres)
          (Nat.le_trans (Nat.le_add_right s.seenBytes k) h7) (hres ▸ h8)
      | assertFailed h1 h2 h3 h4 => exact .assertFailed (conv h1) h2 h3 h4

/-! ## Independence of chunking -/

/-- Consistency of the positions; weaker than `Reading`. -/
def Sound (s : ReceiveState) : Prop :=
  s.seenBytes ≤ s.maxReadableBytes ∧
  match s.nextFragment with
  | .line n => s.LineOk n
  | .literal _ => True

theorem Reading.sound {F : Framing ε μ} {s : ReceiveState} (h : Reading F s) : s.Sound := by
  obtain ⟨-, hle, hf⟩ := h
  refine ⟨hle, ?_⟩
  split
  · rename_i n hn
    rw [hn] at hf
    exact hf.1
  · trivial

theorem LineOk.enqueue {s : ReceiveState} {n : Nat} (h : s.LineOk n) (x : Bytes) :
    (s.enqueueInput x).LineOk n := by
  obtain ⟨h1, h2⟩ := h
  have h3 := s.maxReadable_enqueue x
  obtain ⟨y, hy⟩ := window_enqueue (s := s) x (by omega)
  refine ⟨?_, ?_⟩
  · show s.seenBytes + n ≤ _
    omega
  · rw [hy, List.take_append_of_le_length (by rw [window_length]; omega)]
    exact h2

theorem Sound.enqueue {s : ReceiveState} (h : s.Sound) (x : Bytes) : (s.enqueueInput x).Sound := by
  obtain ⟨h1, h2⟩ := h
  refine ⟨Nat.le_trans h1 (s.maxReadable_enqueue x), ?_⟩
  show match s.nextFragment with
    | .line n => (s.enqueueInput x).LineOk n
    | .literal _ => True
  split
  · rename_i n hn
    rw [hn] at h2
    exact h2.enqueue x
  · trivial

theorem Reading.enqueue {F : Framing ε μ} {s : ReceiveState} (h : Reading F s) (x : Bytes) :
    Reading F (s.enqueueInput x) := by
  have hs := h.sound.enqueue x
  obtain ⟨hr, hle, hf⟩ := h
  have hml := s.maxReadableBytes_le
  refine ⟨hr, hs.1, ?_⟩
  have ht : (s.enqueueInput x).readBuffer.take (s.enqueueInput x).seenBytes =
      s.readBuffer.take s.seenBytes :=
    List.take_append_of_le_length (by show s.seenBytes ≤ _; omega)
  rw [ht]
  have h2 := hs.2
  show match s.nextFragment with
    | .line n => (s.enqueueInput x).LineOk n ∧ Announced F (s.readBuffer.take s.seenBytes)
    | .literal k => _
  split
  · rename_i n hn
    rw [hn] at hf
    exact ⟨hf.1.enqueue x, hf.2⟩
  · rename_i k hk
    rw [hk] at hf
    exact hf

theorem maxReadable_enqueue_eq {s : ReceiveState} (x : Bytes)
    (h : some s.maxReadableBytes = s.maxMessageSize) :
    (s.enqueueInput x).maxReadableBytes = s.maxReadableBytes := by
  unfold maxReadableBytes at *
  show (match s.maxMessageSize with
    | none => (s.readBuffer ++ x).length
    | some size => min (s.readBuffer ++ x).length size) = _
  split
  · rename_i hm
    simp [hm] at h
  · rename_i m hm
    simp only [hm, Option.some.injEq] at h ⊢
    simp only [List.length_append]
    omega

theorem window_enqueue_eq {s : ReceiveState} (x : Bytes)
    (h : some s.maxReadableBytes = s.maxMessageSize) : (s.enqueueInput x).window = s.window := by
  have hml := s.maxReadableBytes_le
  unfold window
  rw [maxReadable_enqueue_eq x h]
  show ((s.readBuffer ++ x).take _).drop s.seenBytes = _
  rw [List.take_append_of_le_length hml]

theorem progressLine_state {dec : Decoder ε μ} {s s1 : ReceiveState} {n : Nat}
    {r : Except (Interrupt (ReceiveError ε)) μ} (hn : s.LineOk n)
    (h : progressLine dec s n = .ok (s1, r)) :
    s1.readBuffer = s.readBuffer ∧ s1.maxMessageSize = s.maxMessageSize ∧
      s1.crlfRelaxed = s.crlfRelaxed ∧ s1.seenBytes ≤ s1.maxReadableBytes ∧
      (r ≠ .error (.error .messageTooLong) → s1.Sound) := by
  have hle := hn.1
  rcases split_at_lf s.window with hw | ⟨b, rest, hw, hb⟩
  · rw [progressLine_none hn hw] at h
    split at h
    · simp only [Except.ok.injEq, Prod.mk.injEq] at h
      obtain ⟨rfl, rfl⟩ := h
      exact ⟨rfl, rfl, rfl, Nat.le_refl _, fun h => absurd rfl h⟩
    · rename_i hmax
      simp only [Except.ok.injEq, Prod.mk.injEq] at h
      obtain ⟨rfl, rfl⟩ := h
      have hml := maxReadable_eq_length hmax
      have hle' : s.seenBytes ≤ s.maxReadableBytes := by omega
      exact ⟨rfl, rfl, rfl, hle', fun _ => ⟨hle',
        ⟨by show s.seenBytes + (s.readBuffer.length - s.seenBytes) ≤ s.maxReadableBytes; omega,
          fun hmem => hw (List.mem_of_mem_take hmem)⟩⟩⟩
  · rw [progressLine_some hn hw hb] at h
    have hwl := s.window_length
    rw [hw] at hwl
    simp only [List.length_append, List.length_cons] at hwl
    have key : s1 = s.afterLine b := by
      split at h
      · simp only [Except.ok.injEq, Prod.mk.injEq] at h; exact h.1.symm
      · split at h
        · split at h
          · simp only [Except.ok.injEq, Prod.mk.injEq] at h; exact h.1.symm
          · cases h
        · simp only [Except.ok.injEq, Prod.mk.injEq] at h; exact h.1.symm
    rw [key]
    have hle' : (s.afterLine b).seenBytes ≤ (s.afterLine b).maxReadableBytes := by
      show s.seenBytes + (b.length + 1) ≤ s.maxReadableBytes
      omega
    exact ⟨rfl, rfl, rfl, hle', fun _ => ⟨hle', hle', by simp⟩⟩

theorem next_state {dec : Decoder ε μ} {s s1 : ReceiveState}
    {r : Except (Interrupt (ReceiveError ε)) μ} (hs : s.Sound) (h : next dec s = .ok (s1, r)) :
    s1.readBuffer = s.readBuffer ∧ s1.maxMessageSize = s.maxMessageSize ∧
      s1.crlfRelaxed = s.crlfRelaxed ∧ s1.seenBytes ≤ s1.maxReadableBytes ∧
      (r ≠ .error (.error .messageTooLong) → s1.Sound) := by
  obtain ⟨hle, hf⟩ := hs
  unfold next at h
  split at h
  · rename_i n hfrag
    rw [hfrag] at hf
    exact progressLine_state hf h
  · rename_i k hfrag
    by_cases hlt : s.maxReadableBytes - s.seenBytes < k
    · rw [progressLiteral_short hle hlt] at h
      by_cases hmax : some s.maxReadableBytes = s.maxMessageSize
      · rw [if_pos hmax] at h
        simp only [Except.ok.injEq, Prod.mk.injEq] at h
        obtain ⟨rfl, rfl⟩ := h
        exact ⟨rfl, rfl, rfl, Nat.le_refl _, fun h => absurd rfl h⟩
      · rw [if_neg hmax] at h
        simp only [Except.ok.injEq, Prod.mk.injEq] at h
        obtain ⟨rfl, rfl⟩ := h
        exact ⟨rfl, rfl, rfl, hle, fun _ => ⟨hle, by rw [hfrag]; trivial⟩⟩
    · rw [progressLiteral_done hle hlt] at h
      exact progressLine_state (s := { s with nextFragment := .startNewLine, seenBytes := s.seenBytes + k })
        ⟨by show s.seenBytes + k + 0 ≤ s.maxReadableBytes; omega, by simp⟩ h

theorem Sound.seen_le {s : ReceiveState} (h : s.Sound) : s.seenBytes ≤ s.readBuffer.length :=
  Nat.le_trans h.1 s.maxReadableBytes_le

theorem sound_fresh {relaxed : Bool} {max : Option Nat} {buf : Bytes} :
    (withReadBuffer relaxed max buf).Sound :=
  ⟨Nat.zero_le _, Nat.zero_le _, by simp⟩

theorem reading_fresh {F : Framing ε μ} {max : Option Nat} {buf : Bytes} :
    Reading F (withReadBuffer F.relaxed max buf) :=
  ⟨rfl, Nat.zero_le _, ⟨Nat.zero_le _, by simp⟩, by simpa [withReadBuffer] using Announced.nil⟩

theorem finishMessage_eq {s : ReceiveState} (h : s.seenBytes ≤ s.readBuffer.length) :
    s.finishMessage =
      .ok (withReadBuffer s.crlfRelaxed s.maxMessageSize (s.readBuffer.drop s.seenBytes)) := by
  unfold finishMessage
  rw [if_neg (by omega)]
  rfl

theorem discardMessage_eq {s : ReceiveState} (h : s.seenBytes ≤ s.readBuffer.length) :
    s.discardMessage =
      .ok (withReadBuffer s.crlfRelaxed s.maxMessageSize (s.readBuffer.drop s.seenBytes),
           s.readBuffer.take s.seenBytes) := by
  unfold discardMessage
  rw [if_neg (by omega), finishMessage_eq h]

/-- `out` with the input `x` appended to its state; only the next fragment may differ, and only
after "message too long". -/
inductive Extends (x : Bytes) : Res ReceiveState (ReceiveError ε) μ →
    Res ReceiveState (ReceiveError ε) μ → Prop
  | panic {p : Panic} : Extends x (.error p) (.error p)
  | same {s1 : ReceiveState} {r : Except (Interrupt (ReceiveError ε)) μ} :
      Extends x (.ok (s1, r)) (.ok (s1.enqueueInput x, r))
  | tooLong {s1 : ReceiveState} {f : NextFragment} :
      Extends x (.ok (s1, .error (.error .messageTooLong)))
        (.ok ({ s1.enqueueInput x with nextFragment := f }, .error (.error .messageTooLong)))

theorem progressLine_enqueue {dec : Decoder ε μ} {s : ReceiveState} {n : Nat} (hn : s.LineOk n)
    (x : Bytes) :
    (∃ s1, progressLine dec s n = .ok (s1, .error (.io .needMoreInput)) ∧
      s1 = { s with nextFragment := .line (s.readBuffer.length - s.seenBytes) }) ∨
    Extends x (progressLine dec s n) (progressLine dec (s.enqueueInput x) n) := by
  have hnx := hn.enqueue x
  have hml := s.maxReadableBytes_le
  rcases split_at_lf s.window with hw | ⟨b, rest, hw, hb⟩
  · by_cases hmax : some s.maxReadableBytes = s.maxMessageSize
    · right
      have hwx : LF ∉ (s.enqueueInput x).window := by rw [window_enqueue_eq x hmax]; exact hw
      rw [progressLine_none hn hw, progressLine_none hnx hwx, if_pos hmax,
        if_pos (by rw [maxReadable_enqueue_eq x hmax]; exact hmax), maxReadable_enqueue_eq x hmax]
      exact .tooLong
    · left
      rw [progressLine_none hn hw, if_neg hmax]
      exact ⟨_, rfl, rfl⟩
  · right
    obtain ⟨y, hy⟩ := window_enqueue (s := s) x (by have := hn.1; omega)
    have hwx : (s.enqueueInput x).window = b ++ LF :: (rest ++ y) := by rw [hy, hw]; simp
    rw [progressLine_some hn hw hb, progressLine_some hnx hwx hb]
    have hwl := s.window_length
    rw [hw] at hwl
    simp only [List.length_append, List.length_cons] at hwl
    have ht : (s.enqueueInput x).readBuffer.take ((s.enqueueInput x).seenBytes + (b.length + 1)) =
        s.readBuffer.take (s.seenBytes + (b.length + 1)) :=
      List.take_append_of_le_length (by show s.seenBytes + (b.length + 1) ≤ _; omega)
    rw [ht]
    show Extends x _ (if badEnding s.crlfRelaxed b = true then _ else _)
    split
    · exact .same
    · split
      · split
        · exact .same
        · exact .panic
      · exact .same

/-- Appending input does not change the outcome of `next`, unless it needed more input. -/
theorem next_enqueue {dec : Decoder ε μ} {s : ReceiveState} (h : s.Sound) (x : Bytes) :
    (∃ s1, next dec s = .ok (s1, .error (.io .needMoreInput))) ∨
    Extends x (next dec s) (next dec (s.enqueueInput x)) := by
  obtain ⟨hle, hf⟩ := h
  unfold next
  show _ ∨ Extends x _ (match s.nextFragment with
    | .line seenBytesInLine => _
    | .literal length => _)
  split
  · rename_i n hfrag
    try rw [hfrag] at hf
    try rw [hfrag]
    rcases progressLine_enqueue (dec := dec) hf x with ⟨s1, h1, -⟩ | h1
    · exact .inl ⟨s1, h1⟩
    · exact .inr h1
  · rename_i k hfrag
    try simp only [hfrag]
    have hlex : (s.enqueueInput x).seenBytes ≤ (s.enqueueInput x).maxReadableBytes :=
      Nat.le_trans hle (s.maxReadable_enqueue x)
    by_cases hlt : s.maxReadableBytes - s.seenBytes < k
    · rw [progressLiteral_short hle hlt]
      by_cases hmax : some s.maxReadableBytes = s.maxMessageSize
      · right
        have hmx := maxReadable_enqueue_eq x hmax
        rw [if_pos hmax, progressLiteral_short hlex (by rw [hmx]; exact hlt),
          if_pos (by rw [hmx]; exact hmax), hmx]
        exact .same
      · left
        rw [if_neg hmax]
        exact ⟨_, rfl⟩
    · have h3 := s.maxReadable_enqueue x
      have hlo : ReceiveState.LineOk
          { s with nextFragment := .startNewLine, seenBytes := s.seenBytes + k } 0 :=
        ⟨by show s.seenBytes + k + 0 ≤ s.maxReadableBytes; omega, by simp⟩
      rw [progressLiteral_done hle hlt, progressLiteral_done hlex
        (by show ¬ _ - s.seenBytes < k; omega)]
      rcases progressLine_enqueue (dec := dec) hlo x with ⟨s1, h1, -⟩ | h1
      · exact .inl ⟨s1, h1⟩
      · exact .inr h1

/-- The already-seen part of a line does not influence the outcome. -/
theorem progressLine_start {dec : Decoder ε μ} {s s' : ReceiveState} {n m : Nat} (hn : s.LineOk n)
    (hm : s.LineOk m) (hs : s' = { s with nextFragment := s'.nextFragment }) :
    progressLine dec s n = progressLine dec s' m := by
  have hm' : s'.LineOk m := by rw [hs]; exact hm
  have hwin : s'.window = s.window := by rw [hs]; rfl
  rcases split_at_lf s.window with hw | ⟨b, rest, hw, hb⟩
  · rw [progressLine_none hn hw, progressLine_none hm' (by rw [hwin]; exact hw)]
    rw [hs]
    rfl
  · rw [progressLine_some hn hw hb, progressLine_some hm' (by rw [hwin]; exact hw) hb]
    rw [hs]
    rfl

/-- "Need more input" only suspends: continuing later with more input is the same as having had that
input from the start. -/
theorem next_resume {dec : Decoder ε μ} {s s1 : ReceiveState} (h : s.Sound)
    (hn : next dec s = .ok (s1, .error (.io .needMoreInput))) :
    s1.Sound ∧ s1.readBuffer = s.readBuffer ∧
      ∀ x, next dec (s1.enqueueInput x) = next dec (s.enqueueInput x) := by
  obtain ⟨hle, hf⟩ := h
  unfold next at hn
  split at hn
  · rename_i n hfrag
    rw [hfrag] at hf
    rcases split_at_lf s.window with hw | ⟨b, rest, hw, hb⟩
    · rw [progressLine_none hf hw] at hn
      split at hn
      · simp at hn
      · rename_i hmax
        simp only [Except.ok.injEq, Prod.mk.injEq, and_true] at hn
        have hml := maxReadable_eq_length hmax
        have hlo : s.LineOk (s.readBuffer.length - s.seenBytes) :=
          ⟨by omega, fun hmem => hw (List.mem_of_mem_take hmem)⟩
        refine ⟨?_, by rw [← hn], ?_⟩
        · rw [← hn]
          exact ⟨hle, hlo⟩
        · intro x
          rw [← hn]
          unfold next
          show progressLine dec _ (s.readBuffer.length - s.seenBytes) = (match s.nextFragment with
            | .line seenBytesInLine => _
            | .literal length => _)
          rw [hfrag]
          exact (progressLine_start (hf.enqueue x) (hlo.enqueue x) rfl).symm
    · rw [progressLine_some hf hw hb] at hn
      split at hn
      · simp at hn
      · split at hn
        · split at hn <;> simp at hn
        · simp at hn
  · rename_i k hfrag
    by_cases hlt : s.maxReadableBytes - s.seenBytes < k
    · rw [progressLiteral_short hle hlt] at hn
      split at hn
      · cases hn
      · rename_i s2 i heq
        split at heq
        · simp only [Except.ok.injEq, Prod.mk.injEq, Except.error.injEq] at heq hn
          rw [← heq.2] at hn
          simp at hn
        · simp only [Except.ok.injEq, Prod.mk.injEq, Except.error.injEq] at heq hn
          obtain ⟨rfl, rfl⟩ := heq
          obtain ⟨rfl, -⟩ := hn
          refine ⟨⟨hle, ?_⟩, rfl, fun x => rfl⟩
          rw [hfrag]
          trivial
      · rename_i s2 heq
        split at heq <;> simp at heq
    · rw [progressLiteral_done hle hlt] at hn
      simp only at hn
      let s2 : ReceiveState := { s with nextFragment := .startNewLine, seenBytes := s.seenBytes + k }
      have hlo : s2.LineOk 0 := ⟨by show s.seenBytes + k + 0 ≤ s.maxReadableBytes; omega, by simp⟩
      have hle2 : s2.seenBytes ≤ s2.maxReadableBytes := by have := hlo.1; omega
      change progressLine dec s2 0 = _ at hn
      rcases split_at_lf s2.window with hw | ⟨b, rest, hw, hb⟩
      · rw [progressLine_none hlo hw] at hn
        split at hn
        · simp at hn
        · rename_i hmax
          simp only [Except.ok.injEq, Prod.mk.injEq, and_true] at hn
          have hml := maxReadable_eq_length hmax
          have hlo2 : s2.LineOk (s2.readBuffer.length - s2.seenBytes) :=
            ⟨by omega, fun hmem => hw (List.mem_of_mem_take hmem)⟩
          refine ⟨?_, by rw [← hn], ?_⟩
          · rw [← hn]
            exact ⟨hle2, hlo2⟩
          · intro x
            have hlex : (s.enqueueInput x).seenBytes ≤ (s.enqueueInput x).maxReadableBytes :=
              Nat.le_trans hle (s.maxReadable_enqueue x)
            have h3 := s.maxReadable_enqueue x
            rw [← hn]
            unfold next
            show progressLine dec _ (s2.readBuffer.length - s2.seenBytes) = (match s.nextFragment with
              | .line seenBytesInLine => _
              | .literal length => _)
            rw [hfrag]
            simp only
            rw [progressLiteral_done hlex (by show ¬ _ - s.seenBytes < k; omega)]
            exact (progressLine_start (hlo.enqueue x) (hlo2.enqueue x) rfl).symm
      · rw [progressLine_some hlo hw hb] at hn
        split at hn
        · simp at hn
        · split at hn
          · split at hn <;> simp at hn
          · simp at hn

end ReceiveState

end ImapFlow
