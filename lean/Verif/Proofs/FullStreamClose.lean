import Verif.Proofs.FullStreamRun

/-!
# Lemmas about a stream with TLS that is closed by the peer
-/

namespace ImapFlow

variable {K σ ε ev ι : Type}

/-- There is a `close_notify` in the input `b`. -/
def Closes (t : Tls K) (b : Bytes) : Prop := ∃ records more cs k, t.raw ++ b = records ++ more ∧
  t.layer.Carries t.readKey records cs k ∧ RecordContent.closeNotify ∈ cs

theorem Closes.split {t : Tls K} (hR : t.layer.Receives) {a b : Bytes} (h : Closes t (a ++ b)) :
    Closes t a ∨ ∃ t1 p, Feeds (some t) (some t1) a p ∧ Closes t1 b := by
  obtain ⟨records, more, cs, k, h1, h2, h3⟩ := h
  rw [← List.append_assoc] at h1
  rcases List.append_eq_append_iff.mp h1 with ⟨z, e1, e2⟩ | ⟨z, e1, e2⟩
  · obtain ⟨r1, p, r2, cs1, cs2, k1, f1, f2, f3, g1, g2, g3⟩ := Tls.carries_prefix hR h2 e1
    by_cases hc : RecordContent.closeNotify ∈ cs1
    · exact .inl ⟨r1, p, cs1, k1, f1, g1, hc⟩
    · refine .inr ⟨{ t with readKey := k1, raw := p }, plaintext cs1, ⟨r1, p, cs1, k1, f1, g1, hc, g3, rfl, rfl⟩,
        r2, more, cs2, k, ?_, g2, ?_⟩
      · rw [f1, f2, List.append_assoc, List.append_assoc] at h1
        exact List.append_cancel_left h1
      · rw [f3] at h3
        exact (List.mem_append.1 h3).resolve_left hc
  · exact .inl ⟨records, z, cs, k, e1, h2, h3⟩

theorem Closes.ne_nil {t : Tls K} (hR : t.layer.Receives) (ht : t.Ready) {b : Bytes} (h : Closes t b) : b ≠ [] := by
  rintro rfl
  obtain ⟨records, more, cs, k, h1, h2, h3⟩ := h
  cases h2 with
  | nil => cases h3
  | cons h _ =>
    have h4 := ht.raw
    rw [List.append_nil] at h1
    rw [h1, List.append_assoc, hR.first h] at h4
    cases h4

theorem Closes.same {t t' : Tls K} {b : Bytes} (h : Closes t b) (hs : SameRecv (some t) (some t')) : Closes t' b := by
  obtain ⟨records, more, cs, k, h1, h2, h3⟩ := h
  simp only [SameRecv] at hs
  rw [hs]
  exact ⟨records, more, cs, k, h1, h2, h3⟩

namespace FullStream

theorem Advanced.hangs {M : Machine σ ε ev ι} {c c' : FullStream K σ} {t : Tls K} {T : List (FullItem ε ev ι)}
    (h : Advanced M c c' T) (ht : c.tls = some t) (hd : t.decrypt c.readBuffer [] = .hang) : c'.ctl = .hung ∧ T = [.hung] := by
  have no : ∀ {tls rest b}, ¬ c.Takes tls rest b := by
    intro tls rest b hx
    cases hx with
    | plain h => rw [h] at ht; cases ht
    | tls h1 h2 => rw [h1] at ht; cases ht; rw [h2] at hd; cases hd
  cases h with
  | hung _ _ h => subst h; exact ⟨rfl, rfl⟩
  | broken h1 h2 => rw [h1] at ht; cases ht; rw [h2] at hd; cases hd
  | inputPanic h => exact (no h).elim
  | nextPanic h => exact (no h).elim
  | returned h => exact (no h).elim
  | waits h => exact (no h).elim
  | refused h => exact (no h).elim

theorem provides_read {M : Machine σ ε ev ι} {b : Bytes} {s s1 : σ} {D : List (StreamItem ε ev ι)}
    (h : Provides M b s s1 D) : streamRead D = [] := by
  rcases h with ⟨rfl, -, rfl⟩ | ⟨-, -, rfl⟩ <;> rfl

theorem poll_read (r : Except (Interrupt ε) ev) : streamRead (StreamItem.poll r :: returns (ι := ι) r) = [] := by
  rcases r with (io | e) | e <;> rfl

theorem Advanced.reads_nothing {M : Machine σ ε ev ι} {c c' : FullStream K σ} {T : List (FullItem ε ev ι)}
    (h : Advanced M c c' T) : streamRead (streamPart T) = [] := by
  cases h with
  | hung => rfl
  | broken => rfl
  | inputPanic => rfl
  | nextPanic _ g =>
    rw [streamPart_append, streamPart_map, streamRead_append, (provides_read g)]; rfl
  | @returned _ _ _ _ _ _ r _ g =>
    rw [streamPart_map, streamRead_append, (provides_read g), (poll_read r)]; rfl
  | waits _ g => rw [streamPart_map, streamRead_append, (provides_read g)]; rfl
  | refused _ g =>
    rw [streamPart_append, streamPart_map, streamRead_append, streamRead_append, (provides_read g)]; rfl

theorem Stepped.hangs {M : Machine σ ε ev ι} {c c' : FullStream K σ} {t : Tls K} {T : List (FullItem ε ev ι)}
    (h : Stepped M c c' T) (ht : c.tls = some t) (hrb : c.readBuffer = []) (hR : t.layer.Receives) (hr : t.Ready)
    (hc : Closes t (streamRead (streamPart T))) : c'.ctl = .hung ∧ ∃ T', T = T' ++ [.hung] := by
  have hne := hc.ne_nil hR hr
  cases h with
  | user => exact (hne rfl).elim
  | userPanic => exact (hne rfl).elim
  | callNext _ h => rw [streamPart_cons] at hne; exact (hne h.reads_nothing).elim
  | @read b T _ _ h =>
    rw [streamPart_cons] at hc
    have hb : streamRead (StreamItem.read b :: streamPart T) = b := by
      show b ++ streamRead (streamPart T) = b
      rw [h.reads_nothing, List.append_nil]
    have hc : Closes t b := hb ▸ hc
    obtain ⟨records, more, cs, k, h1, h2, h3⟩ := hc
    have := h.hangs (t := t) ht (by
      show t.decrypt (c.readBuffer ++ b) [] = .hang
      rw [hrb]
      exact decrypt_hang hr.readSize (C33_diverges hR hr h1 h2 h3))
    exact ⟨this.1, [.stream (.read b)], by rw [this.2]; rfl⟩
  | written _ _ _ h => rw [streamPart_cons] at hne; exact (hne h.reads_nothing).elim
  | wrote _ _ _ h => rw [streamPart_map] at hne; rcases h with ⟨-, rfl, -⟩ | ⟨-, -, rfl, -⟩ <;> exact (hne rfl).elim
  | flush _ _ h => rw [streamPart_map] at hne; rcases h with ⟨-, rfl, -⟩ | ⟨-, rfl, -⟩ <;> exact (hne rfl).elim
  | ended _ h =>
    rcases h with ⟨-, rfl, rfl⟩ | ⟨-, rfl, rfl⟩ | ⟨-, rfl, rfl⟩ | ⟨-, rfl, rfl⟩ | ⟨-, rfl, rfl⟩ <;> exact (hne rfl).elim
  | dropped => exact (hne rfl).elim

theorem run_hangs {M : Machine σ ε ev ι} {as : List (StreamAct ι)} {c c' : FullStream K σ} {t : Tls K}
    {T : List (FullItem ε ev ι)} (h : run M c as = some (c', T)) (ht : c.tls = some t) (hrb : c.readBuffer = [])
    (hR : t.layer.Receives) (hr : t.Ready) (hc : Closes t (streamRead (streamPart T))) :
    c'.ctl = .hung ∧ ∃ T', T = T' ++ [.hung] := by
  induction as generalizing c T t with
  | nil => cases h; exact (hc.ne_nil hR hr rfl).elim
  | cons a as ih =>
    obtain ⟨c1, T1, T2, h1, h2, rfl⟩ := run_cons h
    rw [streamPart_append, streamRead_append] at hc
    rcases hc.split hR with hc | ⟨t1, p, hf, hc⟩
    · obtain ⟨g1, T', rfl⟩ := (step_cases h1).hangs ht hrb hR hr hc
      obtain ⟨rfl, rfl⟩ := run_stopped (.inr (.inl g1)) h2
      exact ⟨g1, T', by simp⟩
    · have hrv : Receiver (some t) := by rintro _ ⟨⟩; exact ⟨hR, hr⟩
      have h3 := (step_cases h1).recv hrb (ht ▸ hrv) (ht ▸ hf)
      by_cases hd : c1.ctl = .at .dead
      · obtain ⟨rfl, rfl⟩ := run_stopped (.inl hd) h2
        exact (hc.ne_nil (hf.receiver hrv _ rfl).1 (hf.receiver hrv _ rfl).2 rfl).elim
      · obtain ⟨h4, h5, -⟩ := h3.alive hd
        cases ht1 : c1.tls with
        | none => rw [ht1] at h4; exact h4.elim
        | some t2 =>
          rw [ht1] at h4
          have hr1 := h4.receiver (hf.receiver hrv)
          obtain ⟨g1, T', rfl⟩ := ih h2 ht1 h5 (hr1 _ rfl).1 (hr1 _ rfl).2 (hc.same h4)
          exact ⟨g1, T1 ++ T', by simp⟩

end FullStream

end ImapFlow
