import Verif.Spec.Search
import Verif.Proofs.WorkDecoder
import Verif.Proofs.Upgrade

/-!
# How many bytes are searched for the end of a line
-/

namespace ImapFlow

variable {ε μ : Type}

/-- Only the bytes that are looked at, and the one before them, decide where a line ends. -/
theorem findCrlf_looked {buf buf' : Bytes} {start : Nat} {relaxed : Bool} (hlen : buf'.length = buf.length)
    (h : ∀ i, start ≤ i + 1 → i < start + lookedAt buf start → buf'[i]? = buf[i]?) :
    findCrlf buf' start relaxed = findCrlf buf start relaxed := by
  unfold findCrlf
  rw [hlen]
  split
  · rfl
  · unfold lookedAt at h
    cases hf : (buf.drop start).findIdx? (· == LF) with
    | none =>
      rw [hf] at h
      have : buf'.drop start = buf.drop start := by
        refine List.ext_getElem? fun i => ?_
        rw [List.getElem?_drop, List.getElem?_drop]
        by_cases hi : start + i < buf.length
        · exact h _ (by omega) (by dsimp only; omega)
        · rw [List.getElem?_eq_none (by omega), List.getElem?_eq_none (by omega)]
      rw [this, hf]
    | some i =>
      rw [hf] at h
      dsimp only at h ⊢
      obtain ⟨h1, h2, h3⟩ := List.findIdx?_eq_some_iff_getElem.mp hf
      have hi : i < (buf'.drop start).length := by
        rw [List.length_drop] at h1 ⊢; omega
      have hget : ∀ j (hj : j ≤ i), (buf'.drop start)[j]'(by omega) = (buf.drop start)[j]'(by omega) := by
        intro j hj
        have := h (start + j) (by omega) (by omega)
        rw [← List.getElem?_drop, ← List.getElem?_drop, List.getElem?_eq_getElem (by omega),
          List.getElem?_eq_getElem (by omega)] at this
        exact Option.some.inj this
      have hf' : (buf'.drop start).findIdx? (· == LF) = some i := by
        refine List.findIdx?_eq_some_iff_getElem.mpr ⟨hi, by rw [hget i (Nat.le_refl _)]; exact h2, fun j hj => ?_⟩
        rw [hget j (by omega)]
        exact h3 j hj
      rw [hf']
      dsimp only
      rw [List.getD_eq_getElem?_getD, List.getD_eq_getElem?_getD, h (start + i - 1) (by omega) (by omega)]

namespace ReceiveState

/-- Up to where the buffer was searched. -/
def reached (s : ReceiveState) : Nat :=
  match s.nextFragment with
  | .line n => s.seenBytes + n
  | .literal _ => s.seenBytes

theorem maxReadableBytes_eq {s : ReceiveState} (h : some s.maxReadableBytes ≠ s.maxMessageSize) :
    s.maxReadableBytes = s.readBuffer.length := by
  unfold maxReadableBytes at h ⊢
  split
  · rfl
  · rename_i size e
    rw [e] at h
    dsimp only at h
    simp only [ne_eq, Option.some.injEq] at h
    omega

theorem progressLine_searched {dec : Decoder ε μ} {s s' : ReceiveState} {n : Nat}
    {r : Except (Interrupt (ReceiveError ε)) μ} (h : progressLine dec s n = .ok (s', r)) {l : Nat}
    (hl : l = lookedAt ((s.readBuffer.take s.maxReadableBytes).drop s.seenBytes) n) :
    s'.readBuffer = s.readBuffer ∧ s'.seenBytes ≤ s.readBuffer.length ∧
    ((∃ e, r = .error (.io e)) ∧ s'.seenBytes = s.seenBytes ∧
        s'.nextFragment = .line (s.readBuffer.length - s.seenBytes) ∧ s.seenBytes + n + l = s.readBuffer.length ∧
        LF ∉ s.readBuffer.drop (s.seenBytes + n) ∨
      r = .error (.error .messageTooLong) ∧ s.seenBytes + n + l = s'.seenBytes ∨
      (∀ e, r ≠ .error (.io e)) ∧ r ≠ .error (.error .messageTooLong) ∧ s'.nextFragment = .line 0 ∧
        s.seenBytes + n + l = s'.seenBytes ∧ 0 < s'.seenBytes ∧ s.readBuffer[s'.seenBytes - 1]? = some LF) := by
  have hm := maxReadableBytes_le s
  unfold progressLine at h
  dsimp only at h
  by_cases h1 : s.seenBytes > s.maxReadableBytes
  · rw [if_pos h1] at h; cases h
  rw [if_neg h1] at h
  unfold findCrlf at h
  have hlen : ((s.readBuffer.take s.maxReadableBytes).drop s.seenBytes).length = s.maxReadableBytes - s.seenBytes := by
    rw [List.length_drop, List.length_take, Nat.min_eq_left hm]
  by_cases h2 : n > ((s.readBuffer.take s.maxReadableBytes).drop s.seenBytes).length
  · rw [if_pos h2] at h; cases h
  rw [if_neg h2] at h
  unfold lookedAt at hl
  cases hf : (((s.readBuffer.take s.maxReadableBytes).drop s.seenBytes).drop n).findIdx? (· == LF) with
  | none =>
    rw [hf] at h hl
    dsimp only at h hl
    split at h
    · cases h
      exact ⟨rfl, hm, .inr (.inl ⟨rfl, by show _ = s.maxReadableBytes; omega⟩)⟩
    · rename_i h3
      have h4 := maxReadableBytes_eq h3
      cases h
      refine ⟨rfl, by show s.seenBytes ≤ _; omega, .inl ⟨⟨_, rfl⟩, rfl, rfl, by omega, ?_⟩⟩
      intro hmem
      rw [h4, List.take_length, List.drop_drop] at hf
      rw [List.findIdx?_eq_none_iff] at hf
      have := hf _ hmem
      simp at this
  | some i =>
    rw [hf] at h hl
    dsimp only at h hl
    obtain ⟨h3, h4, -⟩ := List.findIdx?_eq_some_iff_getElem.mp hf
    have h5 : s.readBuffer[s.seenBytes + (n + i)]? = some LF := by
      have h6 := List.getElem?_eq_getElem h3
      rw [beq_iff_eq.mp h4, List.getElem?_drop, List.getElem?_drop, List.getElem?_take] at h6
      split at h6
      · exact h6
      · cases h6
    rw [List.length_drop] at h3
    have h7 : ∀ {r : Except (Interrupt (ReceiveError ε)) μ} {s' : ReceiveState},
        s' = { s with seenBytes := s.seenBytes + (n + i + 1), nextFragment := .startNewLine } →
        (∀ e, r ≠ .error (.io e)) → r ≠ .error (.error .messageTooLong) →
        s'.readBuffer = s.readBuffer ∧ s'.seenBytes ≤ s.readBuffer.length ∧
        ((∃ e, r = .error (.io e)) ∧ s'.seenBytes = s.seenBytes ∧
            s'.nextFragment = .line (s.readBuffer.length - s.seenBytes) ∧ s.seenBytes + n + l = s.readBuffer.length ∧
            LF ∉ s.readBuffer.drop (s.seenBytes + n) ∨
          r = .error (.error .messageTooLong) ∧ s.seenBytes + n + l = s'.seenBytes ∨
          (∀ e, r ≠ .error (.io e)) ∧ r ≠ .error (.error .messageTooLong) ∧ s'.nextFragment = .line 0 ∧
            s.seenBytes + n + l = s'.seenBytes ∧ 0 < s'.seenBytes ∧ s.readBuffer[s'.seenBytes - 1]? = some LF) := by
      rintro r s' rfl hr1 hr2
      refine ⟨rfl, by show s.seenBytes + (n + i + 1) ≤ _; omega, .inr (.inr ⟨hr1, hr2, rfl, ?_, ?_, ?_⟩)⟩
      · show _ = s.seenBytes + (n + i + 1); omega
      · show 0 < s.seenBytes + (n + i + 1); omega
      · exact h5
    split at h
    · cases h; exact h7 rfl (by simp) (by simp)
    · split at h
      · split at h
        · cases h; exact h7 rfl (by simp) (by simp)
        · cases h
      · cases h; exact h7 rfl (by simp) (by simp)

theorem next_searched {dec : Decoder ε μ} {s s' : ReceiveState} {r : Except (Interrupt (ReceiveError ε)) μ}
    (h : s.next dec = .ok (s', r)) :
    s'.readBuffer = s.readBuffer ∧ s'.seenBytes ≤ s.readBuffer.length ∧
    ((∃ e, r = .error (.io e)) ∧ s.reached + s.searched ≤ s'.reached ∧ s'.reached ≤ s.readBuffer.length ∨
      r = .error (.error .messageTooLong) ∧ s.reached + s.searched ≤ s'.seenBytes ∨
      (∀ e, r ≠ .error (.io e)) ∧ r ≠ .error (.error .messageTooLong) ∧ s'.nextFragment = .line 0 ∧
        s.reached + s.searched ≤ s'.seenBytes ∧ 0 < s'.seenBytes ∧ s.readBuffer[s'.seenBytes - 1]? = some LF) := by
  have hm := maxReadableBytes_le s
  unfold ReceiveState.next at h
  cases hn : s.nextFragment with
  | line n =>
    rw [hn] at h
    have hr : s.reached = s.seenBytes + n := by simp [reached, hn]
    have hs : s.searched = lookedAt ((s.readBuffer.take s.maxReadableBytes).drop s.seenBytes) n := by
      simp [searched, hn]
    obtain ⟨h1, h2, h3⟩ := progressLine_searched h hs
    refine ⟨h1, h2, ?_⟩
    rcases h3 with ⟨h3, h4, h5, h6, -⟩ | ⟨h3, h4⟩ | ⟨h3, h4, h5, h6, h7, h8⟩
    · have : s'.reached = s.seenBytes + (s.readBuffer.length - s.seenBytes) := by simp [reached, h5, h4]
      exact .inl ⟨h3, by omega, by omega⟩
    · exact .inr (.inl ⟨h3, by omega⟩)
    · exact .inr (.inr ⟨h3, h4, h5, by omega, h7, h8⟩)
  | literal k =>
    rw [hn] at h
    dsimp only at h
    have hr : s.reached = s.seenBytes := by simp [reached, hn]
    have hs : s.searched = if s.maxReadableBytes - s.seenBytes < k then 0
        else lookedAt ((s.readBuffer.take s.maxReadableBytes).drop (s.seenBytes + k)) 0 := by
      simp [searched, hn]
    unfold progressLiteral at h
    dsimp only at h
    by_cases h1 : s.seenBytes > s.maxReadableBytes
    · rw [if_pos h1] at h; cases h
    rw [if_neg h1] at h
    by_cases h2 : s.maxReadableBytes - s.seenBytes < k
    · rw [if_pos h2] at h hs
      split at h
      · rename_i hp; split at hp <;> cases hp
      · rename_i hp
        split at hp
        · cases hp; cases h
          exact ⟨rfl, hm, .inr (.inl ⟨rfl, by show _ ≤ s.maxReadableBytes; omega⟩)⟩
        · cases hp; cases h
          exact ⟨rfl, by omega, .inl ⟨⟨_, rfl⟩, by omega, by omega⟩⟩
      · rename_i hp; split at hp <;> cases hp
    · rw [if_neg h2] at h hs
      dsimp only at h
      obtain ⟨h3, h4, h5⟩ := progressLine_searched h hs
      dsimp only at h3 h4 h5
      refine ⟨h3, h4, ?_⟩
      rcases h5 with ⟨h5, h6, h7, h8, -⟩ | ⟨h5, h6⟩ | ⟨h5, h6, h7, h8, h9, h10⟩
      · have : s'.reached = s.seenBytes + k + (s.readBuffer.length - (s.seenBytes + k)) := by simp [reached, h6, h7]
        exact .inl ⟨h5, by omega, by omega⟩
      · exact .inr (.inl ⟨h5, by omega⟩)
      · exact .inr (.inr ⟨h5, h6, h7, by omega, h9, h10⟩)

theorem finished_eq {s s' : ReceiveState} (h : s.finishMessage = .ok s') :
    s.seenBytes ≤ s.readBuffer.length ∧
      s' = { s with readBuffer := s.readBuffer.drop s.seenBytes, seenBytes := 0, nextFragment := .line 0 } := by
  unfold finishMessage at h
  split at h
  · cases h
  · cases h; exact ⟨by omega, rfl⟩

theorem discarded_eq {s s' : ReceiveState} {d : Bytes} (h : s.discardMessage = .ok (s', d)) :
    s.finishMessage = .ok s' := by
  unfold discardMessage at h
  split at h
  · cases h
  · dsimp only at h
    split at h
    · cases h
    · rename_i hs; cases h; exact hs

end ReceiveState

/-- `t` bytes were looked at after `G` bytes were received: the bytes no longer held at most `c` times, the others
once, and a line that was already searched for the end of authentication data once more. -/
def Searching (c G t : Nat) : ServerReceiveState → Prop
  | .command st => st.readBuffer.length ≤ G ∧ st.reached ≤ st.readBuffer.length ∧
      ∃ A ≤ st.readBuffer.length, (c = 1 → A = 0) ∧ LF ∉ st.readBuffer.take A ∧
        t ≤ c * (G - st.readBuffer.length) + st.reached + A
  | .authenticateData st | .idleDone st => st.readBuffer.length ≤ G ∧ st.seenBytes = 0 ∧
      ∃ n ≤ st.readBuffer.length, st.nextFragment = .line n ∧ LF ∉ st.readBuffer.take n ∧
        t ≤ c * (G - st.readBuffer.length) + n
  | .idleAccept st => st.readBuffer.length ≤ G ∧ t ≤ c * (G - st.readBuffer.length)
  | .dummy => False

theorem Searching.bound {c G t : Nat} {r : ServerReceiveState} (hc : c = 1 ∨ c = 2) (h : Searching c G t r) :
    t ≤ c * G := by
  cases r with
  | dummy => exact h.elim
  | command st =>
    obtain ⟨h1, h2, A, h3, h4, -, h5⟩ := h
    rcases hc with rfl | rfl
    · have := h4 rfl; omega
    · omega
  | authenticateData st =>
    obtain ⟨h1, -, n, h2, -, -, h3⟩ := h
    rcases hc with rfl | rfl <;> omega
  | idleDone st =>
    obtain ⟨h1, -, n, h2, -, -, h3⟩ := h
    rcases hc with rfl | rfl <;> omega
  | idleAccept st =>
    obtain ⟨h1, h2⟩ := h
    rcases hc with rfl | rfl <;> omega

theorem lt_of_lf {b : Bytes} {A m : Nat} (hA : LF ∉ b.take A) (h : b[m]? = some LF) : A ≤ m := by
  refine Nat.le_of_not_lt fun hlt => hA ?_
  have : (b.take A)[m]? = some LF := by rw [List.getElem?_take, if_pos hlt]; exact h
  exact List.mem_of_getElem? this

/-- The buffer after a line, on a machine with no line searched. -/
theorem searching_line {c G t l A R m : Nat} {b : Bytes} (hc : c = 1 ∨ c = 2) (hG : b.length ≤ G)
    (hA : c = 1 → A = 0) (hLF : LF ∉ b.take A) (ht : t ≤ c * (G - b.length) + R + A) (hl : R + l ≤ m)
    (hm : m ≤ b.length) (h0 : 0 < m) (h : b[m - 1]? = some LF) : t + l ≤ c * (G - (b.drop m).length) := by
  have h1 := lt_of_lf hLF h
  rw [List.length_drop]
  rcases hc with rfl | rfl
  · have := hA rfl; omega
  · omega

/-- The buffer after a command that is too long. -/
theorem searching_tooLong {c G t l A R m : Nat} {b : Bytes} (hc : c = 1 ∨ c = 2) (hG : b.length ≤ G)
    (hA : c = 1 → A = 0) (hLF : LF ∉ b.take A) (hAb : A ≤ b.length) (ht : t ≤ c * (G - b.length) + R + A)
    (hl : R + l ≤ m) (hm : m ≤ b.length) :
    ∃ B ≤ (b.drop m).length, (c = 1 → B = 0) ∧ LF ∉ (b.drop m).take B ∧
      t + l ≤ c * (G - (b.drop m).length) + 0 + B := by
  rw [List.length_drop]
  refine ⟨A - m, by omega, fun h => by have := hA h; omega, fun hmem => hLF ?_, ?_⟩
  · rw [List.take_drop] at hmem
    by_cases hle : m ≤ A
    · have : m + (A - m) = A := by omega
      rw [this] at hmem
      exact List.mem_of_mem_drop hmem
    · have : A - m = 0 := by omega
      rw [this, Nat.add_zero, List.drop_take_self] at hmem
      cases hmem
  · rcases hc with rfl | rfl
    · have := hA rfl; omega
    · omega

/-- The end of a command. -/
theorem Searching.finished {c G t A R l : Nat} {st st' : ReceiveState} (hc : c = 1 ∨ c = 2)
    (hG : st.readBuffer.length ≤ G) (hA : c = 1 → A = 0) (hLF : LF ∉ st.readBuffer.take A)
    (ht : t ≤ c * (G - st.readBuffer.length) + R + A) (hl : R + l ≤ st.seenBytes) (h0 : 0 < st.seenBytes)
    (h : st.readBuffer[st.seenBytes - 1]? = some LF) (hf : st.finishMessage = .ok st') :
    st'.readBuffer.length ≤ G ∧ st'.seenBytes = 0 ∧ st'.nextFragment = .line 0 ∧
      t + l ≤ c * (G - st'.readBuffer.length) := by
  obtain ⟨h1, rfl⟩ := ReceiveState.finished_eq hf
  refine ⟨?_, rfl, rfl, searching_line hc hG hA hLF ht hl h1 h0 h⟩
  show (st.readBuffer.drop st.seenBytes).length ≤ G
  rw [List.length_drop]; omega

theorem Searching.command_new {c G t : Nat} {st : ReceiveState} (hG : st.readBuffer.length ≤ G)
    (h0 : st.seenBytes = 0) (hn : st.nextFragment = .line 0) (ht : t ≤ c * (G - st.readBuffer.length)) :
    Searching c G t (.command st) := by
  have : st.reached = 0 := by simp [ReceiveState.reached, hn, h0]
  exact ⟨hG, by omega, 0, by omega, fun _ => rfl, by simp, by omega⟩

theorem Searching.line_new {c G t : Nat} {st : ReceiveState} (hG : st.readBuffer.length ≤ G)
    (h0 : st.seenBytes = 0) (hn : st.nextFragment = .line 0) (ht : t ≤ c * (G - st.readBuffer.length)) :
    Searching c G t (.authenticateData st) :=
  ⟨hG, h0, 0, by omega, hn, by simp, by omega⟩

/-- A line of authentication data or the end of IDLE. -/
theorem Searching.receiveLine {c G t : Nat} {dec : Decoder SimpleDecodeError μ} {st st' : ReceiveState}
    {r : Except (Interrupt ServerError) μ} (hc : c = 1 ∨ c = 2) (h : Searching c G t (.authenticateData st))
    (hr : receiveServerLine dec st = .ok (st', r)) :
    Searching c G (t + st.searched) (.authenticateData st') ∧
      (∀ m, r = .ok m → t + st.searched ≤ c * (G - st'.readBuffer.length)) := by
  obtain ⟨hG, h0, n, hn, hf, hLF, ht⟩ := h
  unfold receiveServerLine at hr
  cases hx : st.next dec with
  | error p => rw [hx] at hr; cases hr
  | ok x =>
    obtain ⟨st1, r1⟩ := x
    rw [hx] at hr
    have hs : st.searched = lookedAt ((st.readBuffer.take st.maxReadableBytes).drop st.seenBytes) n := by
      simp [ReceiveState.searched, hf]
    have hp := hx
    unfold ReceiveState.next at hp
    rw [hf] at hp
    obtain ⟨h1, h2, h3⟩ := ReceiveState.progressLine_searched hp hs
    rw [h0] at h3
    -- The end of a line
    have hend : ∀ {st2 : ReceiveState}, (∀ e, r1 ≠ .error (.io e)) → r1 ≠ .error (.error .messageTooLong) →
        st1.finishMessage = .ok st2 → st2.readBuffer.length ≤ G ∧ st2.seenBytes = 0 ∧ st2.nextFragment = .line 0 ∧
          t + st.searched ≤ c * (G - st2.readBuffer.length) := by
      intro st2 e1 e2 e3
      rcases h3 with ⟨⟨e, h3⟩, -⟩ | ⟨h3, -⟩ | ⟨-, -, -, h6, h7, h8⟩
      · exact absurd h3 (e1 e)
      · exact absurd h3 e2
      · refine Searching.finished (A := 0) (R := n) hc (by rw [h1]; exact hG) (fun _ => rfl) (by simp) ?_ ?_ h7
          (by rw [h1]; exact h8) e3
        · rw [h1]; omega
        · omega
    split at hr
    · cases ‹_ = Except.error _›
    · rename_i heq
      cases heq
      unfold finishWith at hr
      split at hr
      · cases hr
      · rename_i e
        cases hr
        obtain ⟨a1, a2, a3, a4⟩ := hend (by simp) (by simp) e
        exact ⟨.line_new a1 a2 a3 a4, fun _ _ => a4⟩
    · rename_i heq
      cases heq
      cases hr
      refine ⟨?_, fun m hm => by cases hm⟩
      rcases h3 with ⟨-, h4, h5, h6, h7⟩ | ⟨h3, -⟩ | ⟨h3, -⟩
      · refine ⟨by rw [h1]; exact hG, h4, st.readBuffer.length, by rw [h1]; exact Nat.le_refl _, ?_, ?_, ?_⟩
        · rw [h5, Nat.sub_zero]
        · rw [h1, List.take_length]
          intro hmem
          rw [← List.take_append_drop n st.readBuffer, List.mem_append] at hmem
          rw [Nat.zero_add] at h7
          exact hmem.elim hLF h7
        · rw [h1]; omega
      · cases h3
      · exact absurd rfl (h3 _)
    · rename_i heq
      cases heq
      unfold discardWith at hr
      split at hr
      · cases hr
      · rename_i e
        cases hr
        obtain ⟨a1, a2, a3, a4⟩ := hend (by simp) (by simp) (ReceiveState.discarded_eq e)
        exact ⟨.line_new a1 a2 a3 a4, fun _ _ => a4⟩
    · rename_i heq
      cases heq
      unfold discardWith at hr
      split at hr
      · cases hr
      · rename_i e
        cases hr
        obtain ⟨a1, a2, a3, a4⟩ := hend (by simp) (by simp) (ReceiveState.discarded_eq e)
        exact ⟨.line_new a1 a2 a3 a4, fun _ _ => a4⟩
    · rename_i heq
      cases heq
      unfold discardWith at hr
      split at hr
      · cases hr
      · rename_i e
        cases hr
        refine ⟨?_, fun m hm => by cases hm⟩
        obtain ⟨b1, rfl⟩ := ReceiveState.finished_eq (ReceiveState.discarded_eq e)
        rcases h3 with ⟨⟨e, h3⟩, -⟩ | ⟨-, h4⟩ | ⟨-, h3, -⟩
        · cases h3
        · refine .line_new ?_ rfl rfl ?_
          · show (st1.readBuffer.drop _).length ≤ G
            rw [List.length_drop, h1]; omega
          · show _ ≤ c * (G - (st1.readBuffer.drop _).length)
            rw [List.length_drop, h1]
            rw [h1] at b1
            rcases hc with rfl | rfl <;> omega
        · exact absurd rfl h3

namespace Server

variable {L : Lib}

theorem progressReceive_searching {c G t : Nat} {s s' : Server} {r : Except (Interrupt ServerError) (Option ServerEvent)}
    (hc : c = 1 ∨ c = 2) (h : Searching c G t s.receiveState) (hr : progressReceive L s = .ok (s', r)) :
    Searching c G (t + s.searchedReceive) s'.receiveState := by
  unfold progressReceive at hr
  cases hst : s.receiveState with
  | dummy => rw [hst] at h; exact h.elim
  | idleAccept st =>
    have : s.searchedReceive = 0 := by simp [searchedReceive, hst]
    rw [hst] at hr
    cases hr
    rw [this]
    exact h
  | authenticateData st =>
    have : s.searchedReceive = st.searched := by simp [searchedReceive, hst]
    rw [hst] at hr h
    rw [this]
    dsimp only at hr
    cases hx : receiveServerLine L.decodeAuthenticateData st with
    | error p => rw [hx] at hr; cases hr
    | ok x =>
      obtain ⟨st1, r1⟩ := x
      rw [hx] at hr
      have h1 := (Searching.receiveLine hc h hx).1
      cases r1 <;> (cases hr; exact h1)
  | idleDone st =>
    have : s.searchedReceive = st.searched := by simp [searchedReceive, hst]
    rw [hst] at hr h
    rw [this]
    dsimp only at hr
    cases hx : receiveServerLine L.decodeIdleDone st with
    | error p => rw [hx] at hr; cases hr
    | ok x =>
      obtain ⟨st1, r1⟩ := x
      rw [hx] at hr
      have h1 := Searching.receiveLine hc h hx
      cases r1 with
      | error i => cases hr; exact h1.1
      | ok u =>
        cases hr
        exact .command_new h1.1.1 rfl rfl (h1.2 _ rfl)
  | command st =>
    have : s.searchedReceive = st.searched := by simp [searchedReceive, hst]
    rw [hst] at hr h
    rw [this]
    dsimp only at hr
    obtain ⟨hG, hR, A, hAb, hA, hLF, ht⟩ := h
    cases hx : st.next L.decodeCommand with
    | error p => rw [hx] at hr; cases hr
    | ok x =>
      obtain ⟨st1, r1⟩ := x
      rw [hx] at hr
      obtain ⟨h1, h2, h3⟩ := ReceiveState.next_searched hx
      have hend : ∀ {st2 : ReceiveState}, (∀ e, r1 ≠ .error (.io e)) → r1 ≠ .error (.error .messageTooLong) →
          st1.finishMessage = .ok st2 → st2.readBuffer.length ≤ G ∧ st2.seenBytes = 0 ∧
            st2.nextFragment = .line 0 ∧ t + st.searched ≤ c * (G - st2.readBuffer.length) := by
        intro st2 e1 e2 e3
        rcases h3 with ⟨⟨e, h3⟩, -⟩ | ⟨h3, -⟩ | ⟨-, -, -, h6, h7, h8⟩
        · exact absurd h3 (e1 e)
        · exact absurd h3 e2
        · exact Searching.finished hc (by rw [h1]; exact hG) hA (by rw [h1]; exact hLF) (by rw [h1]; exact ht) h6 h7
            (by rw [h1]; exact h8) e3
      have hdis : ∀ {mk : Bytes → ServerError} {s' : Server} {r : Except (Interrupt ServerError) (Option ServerEvent)},
          (∀ e, r1 ≠ .error (.io e)) → r1 ≠ .error (.error .messageTooLong) →
          discardCommand s st1 mk = .ok (s', r) → Searching c G (t + st.searched) s'.receiveState := by
        intro mk s' r e1 e2 e3
        unfold discardCommand at e3
        split at e3
        · cases e3
        · rename_i e
          cases e3
          obtain ⟨a1, a2, a3, a4⟩ := hend e1 e2 (ReceiveState.discarded_eq e)
          exact .command_new a1 a2 a3 a4
      split at hr
      · cases ‹_ = Except.error _›
      · rename_i heq
        cases heq
        unfold commandDecoded at hr
        split at hr
        · cases hr
        · rename_i e
          obtain ⟨a1, a2, a3, a4⟩ := hend (by simp) (by simp) e
          split at hr
          · cases hr
            exact .line_new a1 rfl rfl a4
          · cases hr
            exact ⟨a1, a4⟩
          · cases hr
            exact .command_new a1 a2 a3 a4
      · rename_i heq
        cases heq
        cases hr
        rcases h3 with ⟨-, h4, h5⟩ | ⟨h3, -⟩ | ⟨h3, -⟩
        · exact ⟨by rw [h1]; exact hG, by rw [h1]; exact h5, A, by rw [h1]; exact hAb, hA, by rw [h1]; exact hLF,
            by rw [h1]; omega⟩
        · cases h3
        · exact absurd rfl (h3 _)
      · rename_i heq
        cases heq
        unfold literalFound at hr
        rcases h3 with ⟨⟨e, h3⟩, -⟩ | ⟨h3, -⟩ | ⟨-, -, -, h6, -, -⟩
        · cases h3
        · cases h3
        have hlit : ∀ n, Searching c G (t + st.searched) (.command (st1.startLiteral n)) := by
          intro n
          refine ⟨by show st1.readBuffer.length ≤ G; rw [h1]; exact hG,
            by show st1.seenBytes ≤ st1.readBuffer.length; rw [h1]; exact h2,
            A, by show A ≤ st1.readBuffer.length; rw [h1]; exact hAb, hA,
            by show LF ∉ st1.readBuffer.take A; rw [h1]; exact hLF, ?_⟩
          show t + st.searched ≤ c * (G - st1.readBuffer.length) + st1.seenBytes + A
          rw [h1]; omega
        split at hr
        · split at hr
          · split at hr
            · cases hr
            · dsimp only at hr
              split at hr
              · cases hr
              · rename_i e
                cases hr
                obtain ⟨a1, a2, a3, a4⟩ := hend (by simp) (by simp) (ReceiveState.discarded_eq e)
                exact .command_new a1 a2 a3 a4
          · split at hr
            · cases hr
            · rename_i e
              cases hr
              obtain ⟨a1, a2, a3, a4⟩ := hend (by simp) (by simp) (ReceiveState.discarded_eq e)
              exact .command_new a1 a2 a3 a4
        · dsimp only at hr
          split at hr
          · split at hr
            · cases hr
            · split at hr
              · cases hr
              · cases hr; exact hlit _
          · cases hr; exact hlit _
      · rename_i heq; cases heq; exact hdis (by simp) (by simp) hr
      · rename_i heq; cases heq; exact hdis (by simp) (by simp) hr
      · rename_i heq; cases heq; exact hdis (by simp) (by simp) hr
      · rename_i heq
        cases heq
        unfold discardCommand at hr
        split at hr
        · cases hr
        · rename_i e
          cases hr
          obtain ⟨b1, rfl⟩ := ReceiveState.finished_eq (ReceiveState.discarded_eq e)
          rcases h3 with ⟨⟨e, h3⟩, -⟩ | ⟨-, h4⟩ | ⟨-, h3, -⟩
          · cases h3
          · have h5 := searching_tooLong hc hG hA hLF hAb ht h4 h2
            rw [← h1] at h5
            refine ⟨?_, Nat.zero_le _, h5⟩
            show (st1.readBuffer.drop _).length ≤ G
            rw [List.length_drop, h1]; omega
          · exact absurd rfl h3

theorem searchedNext_eq (L : Lib) (s : Server) :
    s.searchedNext L =
      match progressSend L s with
      | (s1, .ok none) =>
        s1.searchedReceive +
          match progressReceive L s1 with
          | .ok (s2, .ok none) => s2.searchedNext L
          | _ => 0
      | _ => 0 := by
  rw [searchedNext]
  split <;> rename_i h1
  · rw [h1]
    dsimp only
    split <;> rename_i h2
    · rw [h2]
    · split
      · rename_i h3; exact absurd h3 (h2 _)
      · rfl
  · split
    · rename_i h3; exact absurd h3 (h1 _)
    · rfl

theorem nextTrace_searching {c G t : Nat} {s s' : Server} {T : List SItem} (hc : c = 1 ∨ c = 2)
    (h : Searching c G t s.receiveState) (hr : s.nextTrace L = .ok (s', T)) :
    Searching c G (t + s.searchedNext L) s'.receiveState := by
  induction hn : s.unread using Nat.strongRecOn generalizing s T t with
  | ind n ih =>
    rw [nextTrace_eq] at hr
    rw [searchedNext_eq]
    cases hs : progressSend L s with
    | mk s1 r1 =>
      have hs1 := progressSend_receiveState hs
      rw [hs] at hr
      rw [← hs1] at h
      cases r1 with
      | error i =>
        have e : s' = s1 := by
          rcases i with (b | _) | e <;> (cases hr; rfl)
        rw [e]
        exact h
      | ok ev =>
        cases ev with
        | some ev => cases hr; exact h
        | none =>
          dsimp only at hr ⊢
          cases hp : progressReceive L s1 with
          | error p => rw [hp] at hr; cases hr
          | ok x =>
            obtain ⟨s2, r2⟩ := x
            rw [hp] at hr
            have h2 := progressReceive_searching hc h hp
            rcases r2 with ((b | _) | e) | (_ | ev)
            · cases hr; exact h2
            · cases hr; exact h2
            · cases hr; exact h2
            · dsimp only at hr ⊢
              have hu : s2.unread < n := by
                have := progressReceive_unread hp
                have h3 : s1.unread = s.unread := by simp [Server.unread, hs1]
                omega
              cases ht : s2.nextTrace L with
              | error p => rw [ht] at hr; cases hr
              | ok y =>
                obtain ⟨s3, U⟩ := y
                rw [ht] at hr
                cases hr
                have := ih _ hu h2 ht rfl
                rwa [← Nat.add_assoc]
            · cases hr; exact h2

/-- Bytes that arrive. -/
theorem _root_.ImapFlow.Searching.input {c G t : Nat} {s s' : Server} {x : Bytes}
    (h : Searching c G t s.receiveState) (hr : s.enqueueInput x = .ok s') :
    Searching c (G + x.length) t s'.receiveState := by
  unfold enqueueInput at hr
  have take : ∀ {b : Bytes} {n : Nat}, n ≤ b.length → (b ++ x).take n = b.take n :=
    fun hle => List.take_append_of_le_length hle
  cases hst : s.receiveState with
  | dummy => rw [hst] at h; exact h.elim
  | command st =>
    rw [hst] at hr h
    cases hr
    obtain ⟨hG, hR, A, hAb, hA, hLF, ht⟩ := h
    refine ⟨?_, ?_, A, ?_, hA, ?_, ?_⟩
    · show (st.readBuffer ++ x).length ≤ _; rw [List.length_append]; omega
    · show st.reached ≤ (st.readBuffer ++ x).length; rw [List.length_append]; omega
    · show A ≤ (st.readBuffer ++ x).length; rw [List.length_append]; omega
    · show LF ∉ (st.readBuffer ++ x).take A; rw [take hAb]; exact hLF
    · show t ≤ c * (G + x.length - (st.readBuffer ++ x).length) + st.reached + A
      rw [List.length_append, Nat.add_sub_add_right]; exact ht
  | authenticateData st =>
    rw [hst] at hr h
    cases hr
    obtain ⟨hG, h0, n, hn, hf, hLF, ht⟩ := h
    refine ⟨?_, h0, n, ?_, hf, ?_, ?_⟩
    · show (st.readBuffer ++ x).length ≤ _; rw [List.length_append]; omega
    · show n ≤ (st.readBuffer ++ x).length; rw [List.length_append]; omega
    · show LF ∉ (st.readBuffer ++ x).take n; rw [take hn]; exact hLF
    · show t ≤ c * (G + x.length - (st.readBuffer ++ x).length) + n
      rw [List.length_append, Nat.add_sub_add_right]; exact ht
  | idleDone st =>
    rw [hst] at hr h
    cases hr
    obtain ⟨hG, h0, n, hn, hf, hLF, ht⟩ := h
    refine ⟨?_, h0, n, ?_, hf, ?_, ?_⟩
    · show (st.readBuffer ++ x).length ≤ _; rw [List.length_append]; omega
    · show n ≤ (st.readBuffer ++ x).length; rw [List.length_append]; omega
    · show LF ∉ (st.readBuffer ++ x).take n; rw [take hn]; exact hLF
    · show t ≤ c * (G + x.length - (st.readBuffer ++ x).length) + n
      rw [List.length_append, Nat.add_sub_add_right]; exact ht
  | idleAccept st =>
    rw [hst] at hr h
    cases hr
    obtain ⟨hG, ht⟩ := h
    refine ⟨?_, ?_⟩
    · show (st.readBuffer ++ x).length ≤ _; rw [List.length_append]; omega
    · show t ≤ c * (G + x.length - (st.readBuffer ++ x).length)
      rw [List.length_append, Nat.add_sub_add_right]; exact ht

/-- The end of authentication: the line that was searched is searched again. -/
theorem _root_.ImapFlow.Searching.authFinish {G t : Nat} {st : ReceiveState}
    (h : Searching 2 G t (.authenticateData st)) : Searching 2 G t (.command st.changeCodec) := by
  obtain ⟨hG, -, n, hn, -, hLF, ht⟩ := h
  refine ⟨hG, Nat.zero_le _, n, hn, by omega, hLF, ?_⟩
  show t ≤ 2 * (G - st.readBuffer.length) + 0 + n
  omega

/-- The bytes given to the server by a call. -/
def _root_.ImapFlow.ServerOp.bytes : ServerOp → Bytes
  | .enqueueInput x => x
  | _ => []

/-- No authentication was finished. -/
def NoFinish (T : List SItem) : Prop := ∀ status h, SItem.authFinish status (.ok h) ∉ T

theorem callTrace_searching {c G t : Nat} {s s' : Server} {op : ServerOp} {T : List SItem} (hc : c = 1 ∨ c = 2)
    (h : Searching c G t s.receiveState) (hr : s.callTrace L op = .ok (s', T)) (hT : c = 1 → NoFinish T) :
    Searching c (G + op.bytes.length) (t + s.searchedCall L op) s'.receiveState := by
  cases op with
  | enqueueData d => cases hr; exact h
  | enqueueStatus d => cases hr; exact h
  | enqueueContinuationRequest d => cases hr; exact h
  | authenticateContinue d =>
    simp only [callTrace] at hr
    unfold authenticateContinue at hr
    cases hst : s.receiveState with
    | dummy => rw [hst] at h; exact h.elim
    | authenticateData st => rw [hst] at hr; cases hr; exact h
    | command st => rw [hst] at hr; cases hr; exact h
    | idleAccept st => rw [hst] at hr; cases hr; exact h
    | idleDone st => rw [hst] at hr; cases hr; exact h
  | authenticateFinish d =>
    simp only [callTrace] at hr
    unfold authenticateFinish at hr
    cases hst : s.receiveState with
    | dummy => rw [hst] at h; exact h.elim
    | command st => rw [hst] at hr; cases hr; exact h
    | idleAccept st => rw [hst] at hr; cases hr; exact h
    | idleDone st => rw [hst] at hr; cases hr; exact h
    | authenticateData st =>
      rw [hst] at hr h
      have e : (s.enqueueStatus d).1.receiveState = .authenticateData st := hst
      dsimp only at hr
      rw [e] at hr
      cases hr
      rcases hc with rfl | rfl
      · exact absurd (List.mem_singleton.mpr rfl) (hT rfl _ _)
      · exact h.authFinish
  | idleAccept d =>
    simp only [callTrace] at hr
    unfold idleAccept at hr
    cases hst : s.receiveState with
    | dummy => rw [hst] at h; exact h.elim
    | command st => rw [hst] at hr; cases hr; exact h
    | authenticateData st => rw [hst] at hr; cases hr; exact h
    | idleDone st => rw [hst] at hr; cases hr; exact h
    | idleAccept st =>
      rw [hst] at hr h
      have e : (s.enqueueContinuationRequest d).1.receiveState = .idleAccept st := hst
      dsimp only at hr
      rw [e] at hr
      cases hr
      exact Searching.line_new (st := st.changeCodec) h.1 rfl rfl h.2
  | idleReject d =>
    simp only [callTrace] at hr
    unfold idleReject at hr
    cases hst : s.receiveState with
    | dummy => rw [hst] at h; exact h.elim
    | command st => rw [hst] at hr; cases hr; exact h
    | authenticateData st => rw [hst] at hr; cases hr; exact h
    | idleDone st => rw [hst] at hr; cases hr; exact h
    | idleAccept st =>
      rw [hst] at hr h
      have e : (s.enqueueStatus d).1.receiveState = .idleAccept st := hst
      dsimp only at hr
      rw [e] at hr
      cases hr
      exact Searching.command_new (st := st.changeCodec) h.1 rfl rfl h.2
  | enqueueInput x =>
    simp only [callTrace] at hr
    cases hx : s.enqueueInput x with
    | error p => rw [hx] at hr; cases hr
    | ok s1 =>
      rw [hx] at hr
      cases hr
      exact Searching.input h hx
  | next => exact nextTrace_searching hc h hr

theorem trace_searching {c G t : Nat} {ops : List ServerOp} {s s' : Server} {T : List SItem} (hc : c = 1 ∨ c = 2)
    (h : Searching c G t s.receiveState) (hr : s.trace L ops = .ok (s', T)) (hT : c = 1 → NoFinish T) :
    Searching c (G + (serverGiven T).length) (t + s.searchedCalls L ops) s'.receiveState := by
  rw [serverGiven_ops hr]
  induction ops generalizing s T G t with
  | nil => cases hr; exact h
  | cons op ops ih =>
    unfold Server.trace at hr
    cases hcall : s.callTrace L op with
    | error p => rw [hcall] at hr; cases hr
    | ok x =>
      obtain ⟨s1, T1⟩ := x
      rw [hcall] at hr
      dsimp only at hr
      cases ht : s1.trace L ops with
      | error p => rw [ht] at hr; cases hr
      | ok y =>
        obtain ⟨s2, U⟩ := y
        rw [ht] at hr
        cases hr
        have h1 := callTrace_searching hc h hcall
          fun e status hd hm => hT e status hd (List.mem_append_left _ hm)
        have h2 := ih h1 ht fun e status hd hm => hT e status hd (List.mem_append_right _ hm)
        rw [searchedCalls, hcall, List.flatMap_cons, List.length_append, ← Nat.add_assoc, ← Nat.add_assoc]
        cases op <;> exact h2

theorem searched_le {g : HandleGenerator} {o : ServerOptions} {gr : Greeting} {c : Nat} {ops : List ServerOp}
    {s : Server} {T : List SItem} (hc : c = 1 ∨ c = 2) (hr : (Server.new g o gr).trace L ops = .ok (s, T))
    (hT : c = 1 → NoFinish T) : (Server.new g o gr).searchedCalls L ops ≤ c * (serverGiven T).length := by
  have h0 : Searching c 0 0 (Server.new g o gr).receiveState :=
    .command_new (Nat.le_refl _) rfl rfl (Nat.zero_le _)
  have h := (trace_searching hc h0 hr hT).bound hc
  rwa [Nat.zero_add, Nat.zero_add] at h

end Server

end ImapFlow
