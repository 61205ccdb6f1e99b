import Verif.Proofs.Accepted
import Verif.Spec.Grows

/-!
# What is on the way to the socket is not much longer than the output
-/

namespace ImapFlow

variable {K σ ε ev ι : Type}

theorem Tls.write_grows {t : Tls K} {f : Nat} (hg : t.layer.Grows f) (b : Bytes) :
    (t.write b).1.layer = t.layer ∧ (t.write b).2 ≤ b.length ∧
    (t.write b).1.sendable.flatten.length ≤ t.sendable.flatten.length + f * (t.write b).2 := by
  unfold Tls.write
  dsimp only
  split
  · exact ⟨rfl, Nat.zero_le _, Nat.le_add_right _ _⟩
  · rename_i hn
    refine ⟨rfl, Nat.min_le_left _ _, ?_⟩
    have h1 : b.take (min b.length t.space) ≠ [] := by
      intro he
      have := congrArg List.length he
      simp only [List.length_take, List.length_nil] at this
      omega
    have h2 := hg t.writeKey _ h1
    have h3 : (b.take (min b.length t.space)).length = min b.length t.space := by
      rw [List.length_take]; omega
    rw [h3] at h2
    show (t.sendable ++ (t.layer.protect t.writeKey (b.take (min b.length t.space))).2).flatten.length ≤
      t.sendable.flatten.length + f * min b.length t.space
    rw [List.flatten_append, List.length_append]
    omega

theorem Tls.writeAll_grows {t : Tls K} {f : Nat} (hg : t.layer.Grows f) (b : Bytes) :
    (t.writeAll b).1.sendable.flatten.length ≤ t.sendable.flatten.length + f * b.length := by
  fun_induction Tls.writeAll t b with
  | case1 t => exact Nat.le_add_right _ _
  | case2 t b bs t' h =>
    have := (t.write_grows hg (b :: bs)).2.2
    rw [h] at this
    dsimp only at this ⊢
    omega
  | case3 t b bs t' n h ih =>
    obtain ⟨h1, h2, h3⟩ := t.write_grows hg (b :: bs)
    rw [h] at h1 h2 h3
    dsimp only at h1 h2 h3
    have h4 := ih (by rw [h1]; exact hg)
    have h5 : f * (bs.drop n).length + f * n.succ = f * (b :: bs).length := by
      rw [← Nat.mul_add]
      congr 1
      simp only [List.length_drop, List.length_cons] at h2 ⊢
      omega
    omega

theorem Tls.drainWrites_length (t : Tls K) :
    t.drainWrites.2.length + t.drainWrites.1.sendable.flatten.length = t.sendable.flatten.length := by
  fun_induction Tls.drainWrites t with
  | case1 t h t' bytes he ih =>
    rw [he] at ih
    dsimp only at ih ⊢
    rw [List.length_append]
    unfold Tls.writeTls at ih ⊢
    split at ih
    · rename_i hs
      simp [Tls.wantsWrite, hs] at h
    · rename_i r rs hs
      dsimp only at ih
      simp only [hs, List.flatten_cons, List.length_append]
      omega
  | case2 t h => simp

theorem Tls.encrypt_grows {t : Tls K} {f : Nat} (hg : t.layer.Grows f) (wb b : Bytes) :
    (t.encrypt wb b).2.1.length + (t.encrypt wb b).1.sendable.flatten.length ≤
      wb.length + t.sendable.flatten.length + f * b.length := by
  unfold Tls.encrypt
  have h1 : (if b.isEmpty then (t, .ok ()) else t.writeAll b).1.sendable.flatten.length ≤
      t.sendable.flatten.length + f * b.length := by
    split
    · exact Nat.le_add_right _ _
    · exact t.writeAll_grows hg b
  split
  · rename_i t' e he
    rw [he] at h1
    dsimp only at h1 ⊢
    omega
  · rename_i t' he
    rw [he] at h1
    have h2 := t'.drainWrites_length
    dsimp only at h1 ⊢
    rw [List.length_append]
    omega

namespace FullStream

/-- The layer of the connection, if any, has the property. -/
def Grown (f : Nat) (tls : Option (Tls K)) : Prop := 0 < f ∧ ∀ t, tls = some t → t.layer.Grows f

theorem Grown.fixed {f : Nat} {t1 t2 : Option (Tls K)} (h : Grown f t1) (hs : SameFixed t1 t2) : Grown f t2 := by
  refine ⟨h.1, ?_⟩
  rintro t rfl
  cases t1 with
  | none => exact hs.elim
  | some t1 => rw [hs.1]; exact h.2 _ rfl

theorem handleOutput_grows {f : Nat} {c c1 : FullStream K σ} (hg : Grown f c.tls) {b : Bytes} {ok : Bool}
    (h : c.handleOutput b = (c1, ok)) : c1.pending.length ≤ c.pending.length + f * b.length := by
  unfold handleOutput at h
  simp only [pending, waiting, List.length_append]
  cases ht : c.tls with
  | none =>
    rw [ht] at h
    cases h
    have : 1 * b.length ≤ f * b.length := Nat.mul_le_mul_right _ hg.1
    simp only [List.length_append, List.length_nil]
    omega
  | some t =>
    rw [ht] at h
    dsimp only at h
    have := t.encrypt_grows (hg.2 _ ht) c.writeBuffer b
    rcases he : t.encrypt c.writeBuffer b with ⟨t', wb', r⟩
    rw [he] at h this
    cases r <;> cases h <;> simpa using this

theorem outputBytes_output (io : Io) :
    streamOutput [(StreamItem.poll (.error (.io io)) : StreamItem ε ev ι)] = outputBytes io := by
  cases io <;> simp [streamOutput, outputBytes]

theorem Advanced.grows {f : Nat} {M : Machine σ ε ev ι} {c c' : FullStream K σ} {T : List (FullItem ε ev ι)}
    (h : Advanced M c c' T) (hg : Grown f c.tls) :
    streamWrote (streamPart T) = [] ∧ c'.pending.length ≤ c.pending.length + f * (streamOutput (streamPart T)).length := by
  have same : ∀ {c1 : FullStream K σ}, SameSend c.tls c1.tls → c1.writeBuffer = c.writeBuffer → c1.pending = c.pending := by
    intro c1 h1 h2
    rw [pending, pending, h2, same_waiting h1]
  cases h with
  | hung h1 h2 h3 => subst h3; exact ⟨rfl, Nat.le_add_right _ _⟩
  | broken h1 h2 h3 => subst h3; exact ⟨rfl, Nat.le_add_right _ _⟩
  | inputPanic h1 h2 h3 =>
    subst h3
    exact ⟨rfl, Nat.le_trans (Nat.le_of_eq (congrArg _ (same (c1 := _) (by exact h1.same_send) (by rfl)))) (Nat.le_add_right _ _)⟩
  | nextPanic h1 h2 h3 h4 =>
    subst h4
    refine ⟨?_, Nat.le_trans (Nat.le_of_eq (congrArg _ (same (c1 := _) (by exact h1.same_send) (by rfl)))) (Nat.le_add_right _ _)⟩
    rw [streamPart_append, streamPart_map, streamWrote_append, (provides_quiet h2).2.1]; rfl
  | @returned _ _ _ D _ _ r h1 h2 h3 h4 h5 =>
    subst h5
    refine ⟨?_, Nat.le_trans (Nat.le_of_eq (congrArg _ (same (c1 := _) (by exact h1.same_send) (by rfl)))) (Nat.le_add_right _ _)⟩
    rw [streamPart_map, streamWrote_append, (provides_quiet h2).2.1, (poll_items (ι := ι) r).2.1]; rfl
  | @waits tls _ _ D _ _ io c1 h1 h2 h3 h4 h5 =>
    subst h5
    refine ⟨by rw [streamPart_map, streamWrote_append, (provides_quiet h2).2.1]; rfl, ?_⟩
    have := handleOutput_grows (hg.fixed (.of_send h1.same_send)) h4
    rw [same (c1 := { c with tls := tls, readBuffer := _, state := _ }) h1.same_send rfl] at this
    rw [streamPart_map, streamOutput_append, (provides_quiet h2).1, List.nil_append, outputBytes_output]
    exact this
  | @refused tls _ _ D _ _ io c1 h1 h2 h3 h4 h5 =>
    subst h5
    refine ⟨by rw [streamPart_append, streamPart_map, streamWrote_append, streamWrote_append, (provides_quiet h2).2.1]; rfl, ?_⟩
    have := handleOutput_grows (hg.fixed (.of_send h1.same_send)) h4
    rw [same (c1 := { c with tls := tls, readBuffer := _, state := _ }) h1.same_send rfl] at this
    rw [streamPart_append, streamPart_map, streamOutput_append, streamOutput_append, (provides_quiet h2).1, List.nil_append,
      outputBytes_output]
    refine Nat.le_trans this (Nat.add_le_add_left (Nat.mul_le_mul_left _ ?_) _)
    rw [List.length_append]
    exact Nat.le_add_right _ _

theorem Stepped.grows {f : Nat} {M : Machine σ ε ev ι} {c c' : FullStream K σ} {T : List (FullItem ε ev ι)}
    (h : Stepped M c c' T) (hg : Grown f c.tls) :
    (streamWrote (streamPart T)).length + c'.pending.length ≤
      c.pending.length + f * (streamOutput (streamPart T)).length := by
  cases h with
  | user h1 h2 h3 => subst h3; simp [streamPart, FullItem.stream?, streamWrote, pending, waiting]
  | userPanic h1 h2 h3 => subst h3; simp [streamPart, FullItem.stream?, streamWrote, pending, waiting]
  | callNext h1 h2 =>
    obtain ⟨e1, e2⟩ := h2.grows hg
    rw [streamPart_cons]
    show (streamWrote (streamPart _)).length + _ ≤ _
    rw [e1, List.length_nil, Nat.zero_add]
    exact e2
  | read h1 h2 h3 =>
    obtain ⟨e1, e2⟩ := h3.grows hg
    rw [streamPart_cons]
    show (streamWrote (streamPart _)).length + _ ≤ _
    rw [e1, List.length_nil, Nat.zero_add]
    exact e2
  | @written b T h1 h2 h3 h4 =>
    obtain ⟨e1, e2⟩ := h4.grows hg
    rw [streamPart_cons]
    show (b ++ streamWrote (streamPart _)).length + _ ≤ _
    rw [e1, List.append_nil]
    simp only [pending, waiting, List.nil_append, List.length_append, h3] at e2 ⊢
    show _ ≤ _ + f * (streamOutput (streamPart T)).length
    omega
  | @wrote b rest T h1 h2 h3 h4 =>
    rcases h4 with ⟨-, rfl, rfl⟩ | ⟨-, rfl, rfl, rfl⟩
    · simp [streamPart, FullItem.stream?, streamWrote, pending, waiting, h3]
    · simp [streamPart, FullItem.stream?, streamWrote, pending, waiting, h3]
  | flush h1 h2 h3 =>
    have := handleOutput_grows hg h2
    rcases h3 with ⟨-, rfl, rfl⟩ | ⟨-, rfl, rfl⟩ <;>
      simpa [streamPart, FullItem.stream?, streamWrote, streamOutput, pending, waiting] using this
  | ended h1 h2 =>
    subst h1
    rcases h2 with ⟨-, rfl, rfl⟩ | ⟨-, rfl, rfl⟩ | ⟨-, rfl, rfl⟩ | ⟨-, rfl, rfl⟩ | ⟨-, rfl, rfl⟩ <;>
      simp [streamPart, FullItem.stream?, streamWrote, pending, waiting]
  | dropped h1 h2 => subst h2; simp [streamPart, FullItem.stream?, streamWrote, pending, waiting]

/-- What was written and what is on the way is at most `f` times as long as the output. -/
theorem run_grows {f : Nat} {M : Machine σ ε ev ι} {as : List (StreamAct ι)} {c c' : FullStream K σ} {T : List (FullItem ε ev ι)}
    (h : run M c as = some (c', T)) (hg : Grown f c.tls) :
    (streamWrote (streamPart T)).length + c'.pending.length ≤
      c.pending.length + f * (streamOutput (streamPart T)).length := by
  induction as generalizing c T with
  | nil => cases h; exact Nat.le_trans (Nat.le_of_eq (Nat.zero_add _)) (Nat.le_add_right _ _)
  | cons a as ih =>
    obtain ⟨c1, T1, T2, h1, h2, rfl⟩ := run_cons h
    have e1 := (step_cases h1).grows hg
    have e2 := ih h2 (hg.fixed (step_cases h1).fixed)
    rw [streamPart_append, streamWrote_append, streamOutput_append, List.length_append, List.length_append, Nat.mul_add]
    omega

end FullStream

end ImapFlow
