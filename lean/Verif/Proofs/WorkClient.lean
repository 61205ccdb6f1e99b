import Verif.Spec.WorkClient
import Verif.Proofs.Work
import Verif.Proofs.SearchClient

/-! # Bytes given to the decoder of the client -/

namespace ImapFlow

namespace ReceiveState

variable {ε μ : Type} {dec : Decoder ε μ} {s s' : ReceiveState} {r : Except (Interrupt (ReceiveError ε)) μ}

/-- The result comes from the decoder. -/
def FromDecoder (r : Except (Interrupt (ReceiveError ε)) μ) : Prop :=
  (∃ m, r = .ok m) ∨ ∃ e, r = .error (.error (.decodingFailure e))

theorem not_fromDecoder_io {e : Io} : ¬ FromDecoder (.error (.io e) : Except (Interrupt (ReceiveError ε)) μ) := by
  rintro (⟨m, hm⟩ | ⟨e, hm⟩) <;> cases hm

theorem progressLine_probe {n : Nat} (h : s.progressLine dec n = .ok (s', r)) :
    (FromDecoder r ∧ s.progressLine probe n =
        .ok (s', .error (.error (.decodingFailure (s'.readBuffer.take s'.seenBytes))))) ∨
      ∃ x, s.progressLine probe n = .ok x ∧ ∀ w, x.2 ≠ .error (.error (.decodingFailure w)) := by
  unfold progressLine at h ⊢
  dsimp only at h ⊢
  split at h
  · cases h
  · rename_i hle
    rw [if_neg hle]
    split at h
    · cases h
    · split at h
      · rename_i hm
        rw [if_pos hm]
        exact .inr ⟨_, rfl, fun w hw => by cases hw⟩
      · rename_i hm
        rw [if_neg hm]
        exact .inr ⟨_, rfl, fun w hw => by cases hw⟩
    · split at h
      · rename_i hm
        rw [if_pos hm]
        exact .inr ⟨_, rfl, fun w hw => by cases hw⟩
      · rename_i hm
        rw [if_neg hm]
        refine .inl ?_
        split at h
        · split at h
          · cases h; exact ⟨.inl ⟨_, rfl⟩, rfl⟩
          · cases h
        · cases h; exact ⟨.inr ⟨_, rfl⟩, rfl⟩

theorem progressLiteral_probe {k : Nat} : s.progressLiteral Bytes k =
    match s.progressLiteral ε k with
    | .error p => .error p
    | .ok (s, .error (.io i)) => .ok (s, .error (.io i))
    | .ok (s, .error (.error _)) => .ok (s, .error (.error .messageTooLong))
    | .ok (s, .ok u) => .ok (s, .ok u) := by
  unfold progressLiteral
  dsimp only
  split
  · rfl
  · split
    · split <;> rfl
    · rfl

theorem decoded_eq (h : s.next dec = .ok (s', r)) :
    s.decoded = 0 ∨ s.decoded = (s'.readBuffer.take s'.seenBytes).length ∧ FromDecoder r := by
  unfold decoded
  have key : ∀ {s : ReceiveState} {n : Nat}, s.progressLine dec n = .ok (s', r) →
      (match s.progressLine probe n with
        | .ok (_, .error (.error (.decodingFailure w))) => w.length
        | _ => 0) = 0 ∨
      (match s.progressLine probe n with
        | .ok (_, .error (.error (.decodingFailure w))) => w.length
        | _ => 0) = (s'.readBuffer.take s'.seenBytes).length ∧ FromDecoder r := by
    intro s n h
    rcases progressLine_probe h with ⟨h1, h2⟩ | ⟨x, h1, h2⟩
    · rw [h2]; exact .inr ⟨rfl, h1⟩
    · rw [h1]
      refine .inl ?_
      split
      · rename_i w e
        simp only [Except.ok.injEq] at e
        subst e
        exact absurd rfl (h2 _)
      · rfl
  unfold next at h ⊢
  split at h
  · exact key h
  · rename_i k hn
    rw [progressLiteral_probe (ε := ε)]
    cases hl : s.progressLiteral ε k with
    | error p => rw [hl] at h; cases h
    | ok x =>
      obtain ⟨s1, (i | e) | u⟩ := x
      · exact .inl rfl
      · exact .inl rfl
      · rw [hl] at h
        exact key h

end ReceiveState

theorem decodedResponse_eq (L : Lib) (s : ReceiveState) :
    decodedResponse L s = s.decoded +
      match s.next L.decodeResponse with
      | .ok (s1, .error (.error (.decodingFailure (.literalFound length)))) => decodedResponse L (s1.startLiteral length)
      | _ => 0 := by
  rw [decodedResponse]
  congr 1
  split <;> rename_i h1
  · rw [h1]
  · split
    · rename_i h3; exact absurd h3 (h1 _ _)
    · rfl

theorem Client.decodedNext_eq (L : Lib) (c : Client) :
    c.decodedNext L =
      match progressSend L c with
      | .ok (c1, .ok none) =>
        c1.decodedReceive L +
          match progressReceive L c1 with
          | .ok (c2, .ok none) => c2.decodedNext L
          | _ => 0
      | _ => 0 := by
  rw [decodedNext]
  split <;> rename_i h1
  · rw [h1]
    dsimp only
    split <;> rename_i h2
    · rw [h2]
    · split
      · rename_i h3; exact absurd h3 (h2 _)
      · rfl
  · split
    · rename_i h3; exact absurd h3 (h1 _)
    · rfl

theorem emptyLiterals_add (m n : Nat) : emptyLiterals (m + n) = emptyLiterals m ++ emptyLiterals n := by
  induction m with
  | zero => simp [emptyLiterals]
  | succ m ih => rw [Nat.succ_add]; show emptyLiteral ++ _ = (emptyLiteral ++ _) ++ _; rw [ih, List.append_assoc]

theorem emptyLiterals_take (m n : Nat) : (emptyLiterals (m + n)).take (5 * m) = emptyLiterals m := by
  rw [emptyLiterals_add, ← emptyLiterals_length m, List.take_left']
  rfl

theorem emptyLiterals_drop (m n : Nat) : (emptyLiterals (m + n)).drop (5 * m) = emptyLiterals n := by
  rw [emptyLiterals_add, ← emptyLiterals_length m, List.drop_left']
  rfl

namespace EmptyLiterals

variable {cr : Bool}

/-- The receiving half of the client when `k` of `n` announcements were decoded. -/
def rx (cr : Bool) (f : NextFragment) (n k : Nat) : ReceiveState := ⟨cr, none, f, 5 * k, emptyLiterals n⟩

theorem rx_line (m k : Nat) : (rx cr (.line 0) (k + (m + 1)) k).next Toy.lib.decodeResponse =
    .ok (rx cr (.line 0) (k + (m + 1)) (k + 1), .error (.error (.decodingFailure (.literalFound 0)))) := by
  have hlen := emptyLiterals_length (k + (m + 1))
  have hdrop := emptyLiterals_drop k (m + 1)
  have htake : (emptyLiterals (k + (m + 1))).take (5 * (k + 1)) = emptyLiterals (k + 1) := by
    have := emptyLiterals_take (k + 1) m
    rwa [show k + 1 + m = k + (m + 1) by omega] at this
  have hall : (emptyLiterals (k + (m + 1))).take (5 * (k + (m + 1))) = emptyLiterals (k + (m + 1)) :=
    List.take_of_length_le (by omega)
  have hfind : findCrlf (emptyLiterals (m + 1)) 0 cr = .ok (some ⟨4, false⟩) := by
    cases cr <;> simp [findCrlf, emptyLiterals, emptyLiteral, LF, CR, List.findIdx?_cons]
  have hdec : Toy.lib.decodeResponse (emptyLiterals (k + 1)) = .error (.literalFound 0) := by
    show Toy.decodeResponse Toy.interpResponse (emptyLiterals (k + 1)) = _
    unfold Toy.decodeResponse
    rw [emptyLiterals_parse]
  have h5 : 5 * k + (4 + 1) = 5 * (k + 1) := by omega
  have hle : ¬ (5 * k > 5 * (k + (m + 1))) := by omega
  simp only [rx, ReceiveState.next, ReceiveState.progressLine, ReceiveState.maxReadableBytes, hlen, hall, hdrop,
    hfind, h5, htake, hdec, if_neg hle, Bool.false_eq_true, if_false, NextFragment.startNewLine]

theorem rx_decoded (m k : Nat) {f : NextFragment} (hf : f = .line 0 ∨ f = .literal 0) :
    (rx cr f (k + (m + 1)) k).decoded = 5 * (k + 1) := by
  have hlen := emptyLiterals_length (k + (m + 1))
  have hdrop := emptyLiterals_drop k (m + 1)
  have hall : (emptyLiterals (k + (m + 1))).take (5 * (k + (m + 1))) = emptyLiterals (k + (m + 1)) :=
    List.take_of_length_le (by omega)
  have hfind : findCrlf (emptyLiterals (m + 1)) 0 cr = .ok (some ⟨4, false⟩) := by
    cases cr <;> simp [findCrlf, emptyLiterals, emptyLiteral, LF, CR, List.findIdx?_cons]
  have h5 : 5 * k + (4 + 1) = 5 * (k + 1) := by omega
  have hle : ¬ (5 * k > 5 * (k + (m + 1))) := by omega
  rcases hf with rfl | rfl <;>
  · simp only [rx, ReceiveState.decoded, probe, ReceiveState.next, ReceiveState.progressLine, ReceiveState.progressLiteral,
      ReceiveState.maxReadableBytes, hlen, hall, hdrop, hfind, h5, if_neg hle, Bool.false_eq_true, if_false,
      Nat.not_lt_zero, Nat.add_zero, NextFragment.startNewLine, List.length_take]
    omega

theorem rx_literal (n k : Nat) (hk : k ≤ n) : (rx cr (.literal 0) n k).next Toy.lib.decodeResponse =
    (rx cr (.line 0) n k).next Toy.lib.decodeResponse := by
  have hlen := emptyLiterals_length n
  have hle : ¬ (5 * k > 5 * n) := by omega
  simp only [rx, ReceiveState.next, ReceiveState.progressLiteral, ReceiveState.maxReadableBytes, hlen, if_neg hle,
    Nat.not_lt_zero, if_false, Nat.add_zero, NextFragment.startNewLine]

theorem rx_end (n : Nat) : (rx cr (.line 0) n n).next Toy.lib.decodeResponse =
    .ok (rx cr (.line 0) n n, .error (.io .needMoreInput)) := by
  have hlen := emptyLiterals_length n
  have hdrop : (emptyLiterals n).drop (5 * n) = [] := List.drop_of_length_le (by omega)
  have htake : (emptyLiterals n).take (5 * n) = emptyLiterals n := List.take_of_length_le (by omega)
  have hfind : findCrlf [] 0 cr = .ok none := by cases cr <;> decide
  simp [rx, ReceiveState.next, ReceiveState.progressLine, ReceiveState.maxReadableBytes, hlen, hdrop, htake, hfind]

theorem response (m k : Nat) {f : NextFragment} (hf : f = .line 0 ∨ f = .literal 0) :
    receiveResponse Toy.lib (rx cr f (k + m) k) = .ok (rx cr (.line 0) (k + m) (k + m), .error (.io .needMoreInput)) ∧
      2 * decodedResponse Toy.lib (rx cr f (k + m) k) + 5 * k * (k + 1) = 5 * (k + m) * (k + m + 1) := by
  have hnext : (rx cr f (k + m) k).next Toy.lib.decodeResponse =
      (rx cr (.line 0) (k + m) k).next Toy.lib.decodeResponse := by
    rcases hf with rfl | rfl
    · rfl
    · exact rx_literal _ _ (by omega)
  induction m generalizing k f with
  | zero =>
    have hd : (rx cr f (k + 0) k).decoded = 0 := by
      rcases ReceiveState.decoded_eq (hnext.trans (rx_end k)) with h | ⟨-, h⟩
      · exact h
      · exact absurd h ReceiveState.not_fromDecoder_io
    rw [receiveResponse_eq, decodedResponse_eq, hd, hnext, Nat.add_zero, rx_end]
    simp
  | succ m ih =>
    have e : k + (m + 1) = k + 1 + m := by omega
    have hs : (rx cr (.line 0) (k + (m + 1)) (k + 1)).startLiteral 0 = rx cr (.literal 0) (k + 1 + m) (k + 1) := by
      rw [e]; rfl
    obtain ⟨i1, i2⟩ := ih (k + 1) (f := .literal 0) (.inr rfl) (rx_literal _ _ (by omega))
    rw [receiveResponse_eq, decodedResponse_eq, rx_decoded m k hf, hnext, rx_line]
    simp only [hs, i1]
    refine ⟨by rw [e], ?_⟩
    simp only [rx] at i2 ⊢
    rw [e]
    grind

theorem client_trace (g : HandleGenerator) (o : ClientOptions) (n : Nat) :
    ∃ c T, (Client.new g o).trace Toy.lib (emptyLiteralClientOps n) = .ok (c, T) ∧
      clientGiven T = hiGreeting ++ emptyLiterals n ∧ clientTaken T = hiGreeting ∧
      2 * (Client.new g o).decodedCalls Toy.lib (emptyLiteralClientOps n) = 10 + 5 * n * (n + 1) := by
  have hg : receiveGreeting Toy.lib ⟨o.crlfRelaxed, none, .line 0, 0, hiGreeting⟩ =
      .ok (⟨o.crlfRelaxed, none, .line 0, 0, []⟩, .ok ⟨.ok, none, [104, 105]⟩) := by
    cases o.crlfRelaxed <;> decide +kernel
  have hd : ReceiveState.decoded ⟨o.crlfRelaxed, none, .line 0, 0, hiGreeting⟩ = 5 := by
    cases o.crlfRelaxed <;> decide +kernel
  obtain ⟨h1, h2⟩ := response (cr := o.crlfRelaxed) n 0 (f := .line 0) (.inl rfl)
  rw [Nat.zero_add] at h1 h2
  have hps : ∀ r, Client.progressSend Toy.lib ⟨g, .new, r⟩ = .ok (⟨g, .new, r⟩, .ok none) := by
    intro r; cases r <;> rfl
  have e1 : (Client.new g o).callTrace Toy.lib (.enqueueInput hiGreeting) =
      .ok (⟨g, .new, .greeting ⟨o.crlfRelaxed, none, .line 0, 0, hiGreeting⟩⟩, [.input hiGreeting]) := rfl
  have hpr : Client.progressReceive Toy.lib ⟨g, .new, .greeting ⟨o.crlfRelaxed, none, .line 0, 0, hiGreeting⟩⟩ =
      .ok (⟨g, .new, .response ⟨o.crlfRelaxed, none, .line 0, 0, []⟩⟩, .ok (some (.greetingReceived ⟨.ok, none, [104, 105]⟩))) := by
    simp only [Client.progressReceive, hg]
    rfl
  have e2 : (⟨g, .new, .greeting ⟨o.crlfRelaxed, none, .line 0, 0, hiGreeting⟩⟩ : Client).callTrace Toy.lib .next =
      .ok (⟨g, .new, .response ⟨o.crlfRelaxed, none, .line 0, 0, []⟩⟩,
        [.received hiGreeting (.greetingReceived ⟨.ok, none, [104, 105]⟩)]) := by
    simp only [Client.callTrace]
    rw [Client.nextTrace_eq, hps]
    simp only [hpr]
    rfl
  have e3 : (⟨g, .new, .response ⟨o.crlfRelaxed, none, .line 0, 0, []⟩⟩ : Client).callTrace Toy.lib
      (.enqueueInput (emptyLiterals n)) =
      .ok (⟨g, .new, .response (rx o.crlfRelaxed (.line 0) n 0)⟩, [.input (emptyLiterals n)]) := rfl
  have hpr2 : Client.progressReceive Toy.lib ⟨g, .new, .response (rx o.crlfRelaxed (.line 0) n 0)⟩ =
      .ok (⟨g, .new, .response (rx o.crlfRelaxed (.line 0) n n)⟩, .error (.io .needMoreInput)) := by
    simp only [Client.progressReceive, h1]
  have e4 : (⟨g, .new, .response (rx o.crlfRelaxed (.line 0) n 0)⟩ : Client).callTrace Toy.lib .next =
      .ok (⟨g, .new, .response (rx o.crlfRelaxed (.line 0) n n)⟩, [.starved]) := by
    simp only [Client.callTrace]
    rw [Client.nextTrace_eq, hps]
    simp only [hpr2]
  refine ⟨⟨g, .new, .response (rx o.crlfRelaxed (.line 0) n n)⟩, [.input hiGreeting,
    .received hiGreeting (.greetingReceived ⟨.ok, none, [104, 105]⟩), .input (emptyLiterals n), .starved], ?_, ?_, ?_, ?_⟩
  · simp [emptyLiteralClientOps, Client.trace, e1, e2, e3, e4]
  · simp [clientGiven, CItem.given]
  · simp [clientTaken, CItem.taken]
  · have d2 : (⟨g, .new, .greeting ⟨o.crlfRelaxed, none, .line 0, 0, hiGreeting⟩⟩ : Client).decodedNext Toy.lib = 5 := by
      rw [Client.decodedNext_eq, hps]
      simp only [hpr, Client.decodedReceive, hd]
    have d4 : (⟨g, .new, .response (rx o.crlfRelaxed (.line 0) n 0)⟩ : Client).decodedNext Toy.lib =
        decodedResponse Toy.lib (rx o.crlfRelaxed (.line 0) n 0) := by
      rw [Client.decodedNext_eq, hps]
      simp only [hpr2, Client.decodedReceive, Nat.add_zero]
    simp only [emptyLiteralClientOps, Client.decodedCalls, Client.decodedCall, e1, e2, e3, e4, d2, d4,
      Nat.zero_add, Nat.add_zero]
    rw [Nat.mul_zero, Nat.zero_mul, Nat.add_zero] at h2
    rw [Nat.mul_add, h2]

end EmptyLiterals

/-! ## An upper bound -/

namespace ReceiveState

variable {ε μ : Type} {dec : Decoder ε μ} {s s' : ReceiveState} {r : Except (Interrupt (ReceiveError ε)) μ}

theorem progressLine_seen {n : Nat} (h : s.progressLine dec n = .ok (s', r)) :
    s.seenBytes ≤ s'.seenBytes ∧ (FromDecoder r → s.seenBytes < s'.seenBytes) := by
  unfold progressLine at h
  dsimp only at h
  split at h
  · cases h
  · split at h
    · cases h
    · split at h
      · cases h
        refine ⟨by dsimp only; omega, ?_⟩
        rintro (⟨m, hm⟩ | ⟨e, hm⟩) <;> cases hm
      · cases h
        refine ⟨Nat.le_refl _, ?_⟩
        rintro (⟨m, hm⟩ | ⟨e, hm⟩) <;> cases hm
    · split at h
      · cases h; exact ⟨by dsimp only; omega, fun _ => by dsimp only; omega⟩
      · split at h
        · split at h
          · cases h; exact ⟨by dsimp only; omega, fun _ => by dsimp only; omega⟩
          · cases h
        · cases h; exact ⟨by dsimp only; omega, fun _ => by dsimp only; omega⟩

theorem next_seen (h : s.next dec = .ok (s', r)) :
    s.seenBytes ≤ s'.seenBytes ∧ (FromDecoder r → s.seenBytes < s'.seenBytes) := by
  unfold next at h
  split at h
  · exact progressLine_seen h
  · rename_i k _
    unfold progressLiteral at h
    dsimp only at h
    split at h
    · cases h
    · rename_i hp
      cases h
      split at hp
      · cases hp
      · split at hp
        · split at hp
          · cases hp
            refine ⟨by dsimp only; omega, ?_⟩
            rintro (⟨m, hm⟩ | ⟨e, hm⟩) <;> cases hm
          · cases hp
            refine ⟨Nat.le_refl _, ?_⟩
            rintro (⟨m, hm⟩ | ⟨e, hm⟩) <;> cases hm
        · cases hp
    · rename_i hp
      split at hp
      · cases hp
      · split at hp
        · split at hp <;> cases hp
        · cases hp
          have := progressLine_seen h
          dsimp only at this
          exact ⟨by omega, fun hr => by have := this.2 hr; omega⟩

/-- Either the decoder was not called, or one more line end was seen. -/
theorem next_decoded (h : s.next dec = .ok (s', r)) :
    s'.readBuffer = s.readBuffer ∧ s'.seenBytes ≤ s.readBuffer.length ∧ s.decoded ≤ s.readBuffer.length ∧
      (s.readBuffer.drop s'.seenBytes).count LF ≤ (s.readBuffer.drop s.seenBytes).count LF ∧
      (s.decoded = 0 ∨
        (s.readBuffer.drop s'.seenBytes).count LF < (s.readBuffer.drop s.seenBytes).count LF) := by
  obtain ⟨h1, h2, h3⟩ := next_searched h
  obtain ⟨h4, h5⟩ := next_seen h
  have hdrop : (s.readBuffer.drop s.seenBytes).drop (s'.seenBytes - s.seenBytes) = s.readBuffer.drop s'.seenBytes := by
    rw [List.drop_drop]; congr 1; omega
  have hcount : (s.readBuffer.drop s.seenBytes).count LF =
      ((s.readBuffer.drop s.seenBytes).take (s'.seenBytes - s.seenBytes)).count LF + (s.readBuffer.drop s'.seenBytes).count LF := by
    rw [← hdrop, ← List.count_append, List.take_append_drop]
  have hd := decoded_eq h
  rw [h1, List.length_take_of_le h2] at hd
  refine ⟨h1, h2, by omega, by omega, ?_⟩
  rcases hd with hd | ⟨hd, hr⟩
  · exact .inl hd
  · refine .inr ?_
    have hlt := h5 hr
    have hLF : s.readBuffer[s'.seenBytes - 1]? = some LF := by
      rcases h3 with ⟨⟨e, h3⟩, -⟩ | ⟨h3, -⟩ | ⟨-, -, -, -, -, h3⟩
      · rcases hr with ⟨m, hm⟩ | ⟨e', hm⟩ <;> rw [h3] at hm <;> cases hm
      · rcases hr with ⟨m, hm⟩ | ⟨e', hm⟩ <;> rw [h3] at hm <;> cases hm
      · exact h3
    have hmem : LF ∈ (s.readBuffer.drop s.seenBytes).take (s'.seenBytes - s.seenBytes) := by
      refine List.mem_of_getElem? (i := s'.seenBytes - 1 - s.seenBytes) ?_
      rw [List.getElem?_take_of_lt (by omega), List.getElem?_drop, show s.seenBytes + (s'.seenBytes - 1 - s.seenBytes) =
        s'.seenBytes - 1 by omega]
      exact hLF
    have := List.count_pos_iff.mpr hmem
    omega

end ReceiveState

/-- `t` bytes were decoded after `G` bytes with `F` line ends were received: at most `G` for each line end seen. -/
def DecodedPerLine (G F t : Nat) (st : ReceiveState) : Prop :=
  st.readBuffer.length ≤ G ∧ (st.readBuffer.drop st.seenBytes).count LF ≤ F ∧
    t ≤ (F - (st.readBuffer.drop st.seenBytes).count LF) * G

theorem DecodedPerLine.finish {G F t : Nat} {st st' : ReceiveState} (h : DecodedPerLine G F t st)
    (hf : st.finishMessage = .ok st') : DecodedPerLine G F t st' ∧ st'.seenBytes = 0 := by
  obtain ⟨h1, rfl⟩ := ReceiveState.finished_eq hf
  obtain ⟨k1, k2, k3⟩ := h
  refine ⟨⟨?_, k2, k3⟩, rfl⟩
  show (st.readBuffer.drop _).length ≤ G; rw [List.length_drop]; omega

theorem DecodedPerLine.next {ε μ : Type} {dec : Decoder ε μ} {G F t : Nat} {st st1 : ReceiveState}
    {r : Except (Interrupt (ReceiveError ε)) μ} (h : DecodedPerLine G F t st) (hx : st.next dec = .ok (st1, r)) :
    DecodedPerLine G F (t + st.decoded) st1 := by
  obtain ⟨k1, k2, k3⟩ := h
  obtain ⟨h1, h2, h3, h4, h5⟩ := ReceiveState.next_decoded hx
  unfold DecodedPerLine
  rw [h1]
  refine ⟨k1, by omega, ?_⟩
  rcases h5 with h5 | h5
  · rw [h5, Nat.add_zero]
    exact Nat.le_trans k3 (Nat.mul_le_mul_right _ (by omega))
  · have h6 : (F - (st.readBuffer.drop st.seenBytes).count LF + 1) * G ≤
        (F - (st.readBuffer.drop st1.seenBytes).count LF) * G := Nat.mul_le_mul_right _ (by omega)
    rw [Nat.add_mul, Nat.one_mul] at h6
    omega

theorem receiveGreeting_perLine {L : Lib} {G F t : Nat} {st st' : ReceiveState}
    {r : Except (Interrupt ClientError) Greeting} (h : DecodedPerLine G F t st)
    (hr : receiveGreeting L st = .ok (st', r)) :
    DecodedPerLine G F (t + st.decoded) st' ∧ ∀ m, r = .ok m → st'.seenBytes = 0 := by
  unfold receiveGreeting at hr
  cases hx : st.next L.decodeGreeting with
  | error p => rw [hx] at hr; cases hr
  | ok x =>
    obtain ⟨st1, r1⟩ := x
    rw [hx] at hr
    have h1 := h.next hx
    split at hr
    · cases ‹_ = Except.error _›
    · rename_i heq
      cases heq
      unfold finishWith at hr
      split at hr
      · cases hr
      · rename_i e
        cases hr
        exact ⟨(h1.finish e).1, fun _ _ => (h1.finish e).2⟩
    · rename_i heq; cases heq; cases hr; exact ⟨h1, fun m hm => by cases hm⟩
    · rename_i heq
      cases heq
      unfold discardWith at hr
      split at hr
      · cases hr
      · rename_i e
        cases hr
        exact ⟨(h1.finish (ReceiveState.discarded_eq e)).1, fun m hm => by cases hm⟩
    · rename_i heq
      cases heq
      unfold discardWith at hr
      split at hr
      · cases hr
      · rename_i e
        cases hr
        exact ⟨(h1.finish (ReceiveState.discarded_eq e)).1, fun m hm => by cases hm⟩
    · cases hr

theorem receiveResponse_perLine {L : Lib} {G F t : Nat} {st st' : ReceiveState}
    {r : Except (Interrupt ClientError) Response} (h : DecodedPerLine G F t st)
    (hr : receiveResponse L st = .ok (st', r)) : DecodedPerLine G F (t + decodedResponse L st) st' := by
  induction hn : st.unread using Nat.strongRecOn generalizing st t with
  | ind n ih =>
    rw [receiveResponse_eq] at hr
    rw [decodedResponse_eq]
    cases hx : st.next L.decodeResponse with
    | error p => rw [hx] at hr; cases hr
    | ok x =>
      obtain ⟨st1, r1⟩ := x
      rw [hx] at hr
      have h1 := h.next hx
      have hdis : ∀ {mk : Bytes → ClientError}, discardWith st1 mk = .ok (st', r) →
          DecodedPerLine G F (t + st.decoded) st' := by
        intro mk hd
        unfold discardWith at hd
        split at hd
        · cases hd
        · rename_i e
          cases hd
          exact (h1.finish (ReceiveState.discarded_eq e)).1
      rcases r1 with (io | e) | m
      · cases hr; exact h1
      · rcases e with e | _ | _
        · cases e with
          | literalFound k =>
            dsimp only at hr ⊢
            have hu : st1.unread < st.unread := ReceiveState.next_unread hx (by simp) (by simp)
            rw [← Nat.add_assoc]
            exact ih _ (by show st1.unread < n; omega)
              (show DecodedPerLine G F _ (st1.startLiteral k) from h1) hr rfl
          | incomplete => exact hdis hr
          | failed => exact hdis hr
        · exact hdis hr
        · cases hr
      · dsimp only at hr ⊢
        unfold finishWith at hr
        split at hr
        · cases hr
        · rename_i e
          cases hr
          exact (h1.finish e).1

namespace Client

variable {L : Lib}

/-- At most `G` bytes were decoded for each line end seen. -/
def PerLine (G F t : Nat) (c : Client) : Prop :=
  match c.receiveState with
  | .greeting st | .response st => DecodedPerLine G F t st
  | .dummy => False

theorem PerLine.congr {G F t : Nat} {c c' : Client} (h : PerLine G F t c) (hc : c'.receiveState = c.receiveState) :
    PerLine G F t c' := by
  unfold PerLine at h ⊢
  rw [hc]
  exact h

theorem progressReceive_perLine {G F t : Nat} {c c' : Client} {r : Except (Interrupt ClientError) (Option ClientEvent)}
    (h : PerLine G F t c) (hr : progressReceive L c = .ok (c', r)) : PerLine G F (t + c.decodedReceive L) c' := by
  unfold progressReceive at hr
  unfold PerLine at h
  cases hst : c.receiveState with
  | dummy => rw [hst] at h; exact h.elim
  | greeting st =>
    rw [hst] at hr h
    have e : c.decodedReceive L = st.decoded := by simp [decodedReceive, hst]
    rw [e]
    dsimp only at hr h
    cases hx : receiveGreeting L st with
    | error p => rw [hx] at hr; cases hr
    | ok x =>
      obtain ⟨st1, r1⟩ := x
      rw [hx] at hr
      have h1 := receiveGreeting_perLine h hx
      cases r1 with
      | error i => cases hr; exact h1.1
      | ok m =>
        cases hr
        obtain ⟨⟨k1, k2, k3⟩, k4⟩ := h1
        rw [k4 _ rfl] at k2 k3
        exact ⟨k1, k2, k3⟩
  | response st =>
    rw [hst] at hr h
    have e : c.decodedReceive L = decodedResponse L st := by simp [decodedReceive, hst]
    rw [e]
    dsimp only at hr h
    cases hx : receiveResponse L st with
    | error p => rw [hx] at hr; cases hr
    | ok x =>
      obtain ⟨st1, r1⟩ := x
      rw [hx] at hr
      have h1 := receiveResponse_perLine h hx
      cases r1 with
      | error i => cases hr; exact h1
      | ok m => cases hr; exact h1

theorem nextTrace_perLine {G F t : Nat} {c c' : Client} {T : List CItem} (h : PerLine G F t c)
    (hr : c.nextTrace L = .ok (c', T)) : PerLine G F (t + c.decodedNext L) c' := by
  induction hn : c.unread using Nat.strongRecOn generalizing c T t with
  | ind n ih =>
    rw [nextTrace_eq] at hr
    rw [decodedNext_eq]
    cases hs : progressSend L c with
    | error p => rw [hs] at hr; cases hr
    | ok x =>
      obtain ⟨c1, r1⟩ := x
      rw [hs] at hr
      have hc1 := progressSend_unread hs
      have h := h.congr hc1
      rcases r1 with ((b | _) | e) | (_ | ev)
      · cases hr; exact h
      · cases hr; exact h
      · cases hr; exact h
      · dsimp only at hr ⊢
        cases hp : progressReceive L c1 with
        | error p => rw [hp] at hr; cases hr
        | ok x =>
          obtain ⟨c2, r2⟩ := x
          rw [hp] at hr
          have h2 := progressReceive_perLine h hp
          rcases r2 with ((b | _) | e) | (_ | ev)
          · cases hr; exact h2
          · cases hr; exact h2
          · cases hr; exact h2
          · dsimp only at hr ⊢
            have hu : c2.unread < n := by
              have := progressReceive_unread hp
              have h3 : c1.unread = c.unread := by simp [Client.unread, hc1]
              omega
            cases ht : c2.nextTrace L with
            | error p => rw [ht] at hr; cases hr
            | ok y =>
              obtain ⟨c3, U⟩ := y
              rw [ht] at hr
              cases hr
              have := ih _ hu h2 ht rfl
              rwa [← Nat.add_assoc]
          · cases hr; exact h2
      · cases hr; exact h

theorem _root_.ImapFlow.DecodedPerLine.input {G F t : Nat} {st : ReceiveState} (h : DecodedPerLine G F t st)
    (x : Bytes) : DecodedPerLine (G + x.length) (F + x.count LF) t (st.enqueueInput x) := by
  obtain ⟨k1, k2, k3⟩ := h
  have hc : ((st.readBuffer ++ x).drop st.seenBytes).count LF ≤ (st.readBuffer.drop st.seenBytes).count LF + x.count LF := by
    rw [List.drop_append, List.count_append]
    have := (List.drop_sublist (st.seenBytes - st.readBuffer.length) x).count_le LF
    omega
  refine ⟨?_, ?_, ?_⟩
  · show (st.readBuffer ++ x).length ≤ _; rw [List.length_append]; omega
  · show ((st.readBuffer ++ x).drop st.seenBytes).count LF ≤ _; omega
  · show t ≤ (F + x.count LF - ((st.readBuffer ++ x).drop st.seenBytes).count LF) * (G + x.length)
    exact Nat.le_trans k3 (Nat.mul_le_mul (by omega) (by omega))

theorem callTrace_perLine {G F t : Nat} {c c' : Client} {op : ClientOp} {T : List CItem} (h : PerLine G F t c)
    (hr : c.callTrace L op = .ok (c', T)) : PerLine (G + op.bytes.length) (F + op.bytes.count LF) (t + c.decodedCall L op) c' := by
  cases op with
  | enqueueCommand d => cases hr; exact h
  | setAuthenticateData d =>
    simp only [callTrace] at hr
    unfold setAuthenticateData at hr
    split at hr
    · cases hr
    · cases hr; exact h
  | setIdleDone =>
    simp only [callTrace] at hr
    unfold setIdleDone at hr
    split at hr
    · cases hr
    · cases hr; exact h
  | enqueueInput x =>
    simp only [callTrace] at hr
    unfold enqueueInput at hr
    unfold PerLine at h
    cases hst : c.receiveState with
    | dummy => rw [hst] at h; exact h.elim
    | greeting st => rw [hst] at hr h; cases hr; exact h.input x
    | response st => rw [hst] at hr h; cases hr; exact h.input x
  | next => exact nextTrace_perLine h hr

theorem trace_perLine {G F t : Nat} {ops : List ClientOp} {c c' : Client} {T : List CItem} (h : PerLine G F t c)
    (hr : c.trace L ops = .ok (c', T)) : PerLine (G + (clientGiven T).length) (F + (clientGiven T).count LF) (t + c.decodedCalls L ops) c' := by
  rw [clientGiven_ops hr]
  induction ops generalizing c T G F t with
  | nil => cases hr; exact h
  | cons op ops ih =>
    unfold Client.trace at hr
    cases hcall : c.callTrace L op with
    | error p => rw [hcall] at hr; cases hr
    | ok x =>
      obtain ⟨s1, T1⟩ := x
      rw [hcall] at hr
      dsimp only at hr
      cases ht : s1.trace L ops with
      | error p => rw [ht] at hr; cases hr
      | ok y =>
        obtain ⟨s2, U⟩ := y
        rw [ht] at hr
        cases hr
        have h2 := ih (callTrace_perLine h hcall) ht
        rw [decodedCalls, hcall, List.flatMap_cons, List.length_append, List.count_append, ← Nat.add_assoc,
          ← Nat.add_assoc, ← Nat.add_assoc]
        cases op <;> exact h2

theorem decoded_le {g : HandleGenerator} {o : ClientOptions} {ops : List ClientOp} {c : Client} {T : List CItem}
    (hr : (Client.new g o).trace L ops = .ok (c, T)) :
    (Client.new g o).decodedCalls L ops ≤ (clientGiven T).count LF * (clientGiven T).length := by
  have h0 : PerLine 0 0 0 (Client.new g o) := ⟨Nat.le_refl _, Nat.le_refl _, Nat.zero_le _⟩
  have h := trace_perLine h0 hr
  rw [Nat.zero_add, Nat.zero_add, Nat.zero_add] at h
  unfold PerLine at h
  split at h
  · exact Nat.le_trans h.2.2 (Nat.mul_le_mul_right _ (Nat.sub_le _ _))
  · exact Nat.le_trans h.2.2 (Nat.mul_le_mul_right _ (Nat.sub_le _ _))
  · exact h.elim

end Client

end ImapFlow
