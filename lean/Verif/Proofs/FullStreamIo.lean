import Verif.Proofs.FullStream
import Verif.Proofs.StreamIo

/-!
# Steps of the whole stream
-/

namespace ImapFlow

variable {K σ ε ev ι : Type}

namespace FullStream

/-- `provideInput` takes `b` from the read buffer. -/
inductive Takes (c : FullStream K σ) : Option (Tls K) → Bytes → Bytes → Prop where
  | plain : c.tls = none → Takes c none [] c.readBuffer
  | tls {t t' : Tls K} {rest b : Bytes} : c.tls = some t → t.decrypt c.readBuffer [] = .ok t' rest b →
      Takes c (some t') rest b

/-- What one iteration of `next` does. -/
inductive Advanced (M : Machine σ ε ev ι) (c c' : FullStream K σ) : List (FullItem ε ev ι) → Prop where
  /-- `decrypt` does not end -/
  | hung {t} : c.tls = some t → t.decrypt c.readBuffer [] = .hang → c' = { c with ctl := .hung } → Advanced M c c' [.hung]
  /-- `decrypt` fails -/
  | broken {t} : c.tls = some t → t.decrypt c.readBuffer [] = .broken → c' = { c with ctl := .broken } →
      Advanced M c c' [.broken]
  | inputPanic {tls rest b p rb} : c.Takes tls rest b → M.enqueueInput c.state b = .error p →
      c' = { c with tls, readBuffer := rb, ctl := .at .dead } → Advanced M c c' [.stream (.panicked p)]
  | nextPanic {tls rest b D s1 p} : c.Takes tls rest b → Provides M b c.state s1 D → M.next s1 = .error p →
      c' = { c with tls, readBuffer := rest, state := s1, ctl := .at .dead } →
      Advanced M c c' (D.map .stream ++ [.stream (.panicked p)])
  | returned {tls rest b D s1 s2 r} : c.Takes tls rest b → Provides M b c.state s1 D → M.next s1 = .ok (s2, r) →
      (∀ io, r ≠ .error (.io io)) → c' = { c with tls, readBuffer := rest, state := s2, ctl := .at .idle } →
      Advanced M c c' ((D ++ StreamItem.poll r :: returns r).map .stream)
  | waits {tls rest b D s1 s2 io c1} : c.Takes tls rest b → Provides M b c.state s1 D →
      M.next s1 = .ok (s2, .error (.io io)) →
      { c with tls, readBuffer := rest, state := s2 }.handleOutput (outputBytes io) = (c1, true) →
      c' = { c1 with ctl := .at (if c1.writeBuffer.isEmpty then .reading else .racing) } →
      Advanced M c c' ((D ++ [StreamItem.poll (.error (.io io))]).map .stream)
  | refused {tls rest b D s1 s2 io c1} : c.Takes tls rest b → Provides M b c.state s1 D →
      M.next s1 = .ok (s2, .error (.io io)) →
      { c with tls, readBuffer := rest, state := s2 }.handleOutput (outputBytes io) = (c1, false) →
      c' = { c1 with ctl := .at .idle } →
      Advanced M c c' ((D ++ [StreamItem.poll (.error (.io io))]).map .stream ++ [.refused, .stream (.returned (.error .io))])

theorem deliver_cases (M : Machine σ ε ev ι) (c : FullStream K σ) (b : Bytes) :
    (∃ p, M.enqueueInput c.state b = .error p ∧
      c.deliver M b = .error ({ c with ctl := .at .dead }, [.stream (.panicked p)])) ∨
    ∃ s1 D, Provides M b c.state s1 D ∧ c.deliver M b = .ok ({ c with state := s1 }, D.map .stream) := by
  unfold deliver
  by_cases hb : b.isEmpty
  · right
    rw [List.isEmpty_iff] at hb
    subst hb
    exact ⟨c.state, [], .inl ⟨rfl, rfl, rfl⟩, rfl⟩
  · rw [if_neg hb]
    rw [List.isEmpty_iff] at hb
    cases he : M.enqueueInput c.state b with
    | error p => exact .inl ⟨p, rfl, rfl⟩
    | ok s1 => exact .inr ⟨s1, [.deliver b], .inr ⟨hb, he, rfl⟩, rfl⟩

theorem provideInput_cases (M : Machine σ ε ev ι) (c : FullStream K σ) :
    (∃ c' T, c.provideInput M = .error (c', T) ∧ Advanced M c c' T) ∨
    ∃ tls rest b s1 D, c.Takes tls rest b ∧ Provides M b c.state s1 D ∧
      c.provideInput M = .ok ({ c with tls, readBuffer := rest, state := s1 }, D.map .stream) := by
  unfold provideInput
  cases ht : c.tls with
  | none =>
    rcases c.deliver_cases M c.readBuffer with ⟨p, h1, h2⟩ | ⟨s1, D, h1, h2⟩
    · rw [h2]
      exact .inl ⟨_, _, rfl, .inputPanic (rb := c.readBuffer) (.plain ht) h1 (by rw [← ht])⟩
    · rw [h2]
      exact .inr ⟨none, [], _, s1, D, .plain ht, h1, by simp [ht]⟩
  | some t =>
    simp only
    cases hd : t.decrypt c.readBuffer [] with
    | hang => exact .inl ⟨_, _, rfl, .hung ht hd (by rw [← ht])⟩
    | broken => exact .inl ⟨_, _, rfl, .broken ht hd (by rw [← ht])⟩
    | ok t' rest b =>
      simp only
      rcases ({ c with tls := some t', readBuffer := rest } : FullStream K σ).deliver_cases M b with
        ⟨p, h1, h2⟩ | ⟨s1, D, h1, h2⟩
      · rw [h2]
        exact .inl ⟨_, _, rfl, .inputPanic (rb := rest) (.tls ht hd) h1 rfl⟩
      · rw [h2]
        exact .inr ⟨_, rest, b, s1, D, .tls ht hd, h1, rfl⟩

theorem advance_cases (M : Machine σ ε ev ι) (c : FullStream K σ) : Advanced M c (c.advance M).1 (c.advance M).2 := by
  unfold advance
  rcases c.provideInput_cases M with ⟨c', T, h1, h2⟩ | ⟨tls, rest, b, s1, D, h1, h2, h3⟩
  · rw [h1]; exact h2
  · rw [h3]
    simp only
    cases hn : M.next s1 with
    | error p => exact .nextPanic h1 h2 hn rfl
    | ok x =>
      obtain ⟨s2, r⟩ := x
      rcases r with (io | e) | e
      · simp only
        cases ho : ({ c with tls, readBuffer := rest, state := s2 } : FullStream K σ).handleOutput (outputBytes io) with
        | mk c1 ok =>
          cases ok with
          | false =>
            have := Advanced.refused (M := M) h1 h2 hn ho rfl
            simpa using this
          | true =>
            have := Advanced.waits (M := M) h1 h2 hn ho rfl
            simp only
            by_cases hw : c1.writeBuffer.isEmpty <;> simp only [hw] at this ⊢ <;> simpa using this
      · have := Advanced.returned (M := M) (r := .error (.error e)) h1 h2 hn (by simp) rfl
        simpa [returns] using this
      · have := Advanced.returned (M := M) (r := .ok e) h1 h2 hn (by simp) rfl
        simpa [returns] using this

/-- What one step does. -/
inductive Stepped (M : Machine σ ε ev ι) (c c' : FullStream K σ) : List (FullItem ε ev ι) → Prop where
  | user {op s} : c.ctl = .at .idle → M.user c.state op = .ok s → c' = { c with state := s } →
      Stepped M c c' [.stream (.user op)]
  | userPanic {op p} : c.ctl = .at .idle → M.user c.state op = .error p → c' = { c with ctl := .at .dead } →
      Stepped M c c' [.stream (.user op), .stream (.panicked p)]
  /-- the loop of `next` starts -/
  | callNext {T} : c.ctl = .at .idle → Advanced M c c' T → Stepped M c c' (.stream .callNext :: T)
  /-- input arrived and the loop of `next` starts again -/
  | read {b T} : c.ctl = .at .reading ∨ c.ctl = .at .racing → b ≠ [] →
      Advanced M { c with readBuffer := c.readBuffer ++ b } c' T → Stepped M c c' (.stream (.read b) :: T)
  /-- all output was written and the loop of `next` starts again -/
  | written {b T} : c.ctl = .at .racing → b ≠ [] → c.writeBuffer = b → Advanced M { c with writeBuffer := [] } c' T →
      Stepped M c c' (.stream (.wrote b) :: T)
  /-- some output was written -/
  | wrote {b rest T} : c.ctl = .at .racing ∨ c.ctl = .at .flushing → b ≠ [] → c.writeBuffer = b ++ rest →
      ((rest ≠ [] ∧ T = [] ∧ c' = { c with writeBuffer := rest }) ∨
        (c.ctl = .at .flushing ∧ rest = [] ∧ T = [.flushed (.ok ())] ∧ c' = { c with writeBuffer := [], ctl := .at .idle })) →
      Stepped M c c' ((.wrote b :: T).map .stream)
  /-- `flush` starts -/
  | flush {c1 ok T} : c.ctl = .at .idle → c.handleOutput [] = (c1, ok) →
      ((c1.writeBuffer = [] ∧ T = [.flushed (.ok ())] ∧ c' = c1) ∨
        (c1.writeBuffer ≠ [] ∧ T = [] ∧ c' = { c1 with ctl := .at .flushing })) →
      Stepped M c c' ((.callFlush :: T).map .stream)
  /-- the end of the connection or a failure -/
  | ended {x y} : c' = { c with ctl := .at .idle } →
      ((c.ctl = .at .reading ∨ c.ctl = .at .racing) ∧ x = .read [] ∧ y = .returned (.error .closed)) ∨
      (c.ctl = .at .racing ∧ x = .wrote [] ∧ y = .returned (.error .closed)) ∨
      (c.ctl = .at .flushing ∧ x = .wrote [] ∧ y = .flushed (.error .closed)) ∨
      ((c.ctl = .at .reading ∨ c.ctl = .at .racing) ∧ x = .failed ∧ y = .returned (.error .io)) ∨
      (c.ctl = .at .flushing ∧ x = .failed ∧ y = .flushed (.error .io)) → Stepped M c c' [.stream x, .stream y]
  | dropped : c.ctl = .at .reading ∨ c.ctl = .at .racing ∨ c.ctl = .at .flushing → c' = { c with ctl := .at .idle } →
      Stepped M c c' [.stream .dropped]

theorem completeRead_cases (M : Machine σ ε ev ι) (c : FullStream K σ) (b : Bytes)
    (hc : c.ctl = .at .reading ∨ c.ctl = .at .racing) :
    Stepped M c (c.completeRead M b).1 (c.completeRead M b).2 := by
  unfold completeRead
  by_cases hb : b = []
  · subst hb
    exact .ended (by simp) (.inl ⟨hc, rfl, rfl⟩)
  · have : ¬ b.length = 0 := by simpa using hb
    simp only [this, if_false]
    exact .read hc hb (advance_cases ..)

theorem step_cases {M : Machine σ ε ev ι} {c c' : FullStream K σ} {a : StreamAct ι} {T : List (FullItem ε ev ι)}
    (h : c.step M a = some (c', T)) : Stepped M c c' T := by
  cases a with
  | user op =>
    simp only [step] at h
    split at h
    · rename_i hc
      split at h <;> rename_i hu <;> cases h
      · exact .userPanic hc hu rfl
      · exact .user hc hu rfl
    · cases h
  | callNext =>
    simp only [step] at h
    split at h
    · rename_i hc
      cases h
      exact .callNext hc (advance_cases ..)
    · cases h
  | callFlush =>
    simp only [step] at h
    split at h
    · rename_i hc
      injection h with h
      unfold startFlush at h
      dsimp only at h
      cases ho : c.handleOutput [] with
      | mk c1 ok =>
        rw [ho] at h
        dsimp only at h
        split at h <;> rename_i hw <;> rw [List.isEmpty_iff] at hw <;> cases h
        · exact .flush (T := [.flushed (.ok ())]) hc ho (.inl ⟨hw, rfl, rfl⟩)
        · exact .flush (T := []) hc ho (.inr ⟨hw, rfl, rfl⟩)
    · cases h
  | read b =>
    simp only [step] at h
    split at h
    · rename_i hc
      injection h with h
      have := c.completeRead_cases M b (.inl hc)
      rwa [h] at this
    · rename_i hc
      injection h with h
      have := c.completeRead_cases M b (.inr hc)
      rwa [h] at this
    · cases h
  | write n =>
    simp only [step] at h
    split at h
    · rename_i hn
      by_cases h0 : n = 0
      · subst h0
        split at h
        · rename_i hc
          simp only [completeWrite, if_true] at h
          cases h
          exact .ended (by simp) (.inr (.inl ⟨hc, rfl, rfl⟩))
        · rename_i hc
          simp only [completeFlush, if_true] at h
          cases h
          exact .ended (by simp) (.inr (.inr (.inl ⟨hc, rfl, rfl⟩)))
        · cases h
      · have hne : c.writeBuffer.take n ≠ [] := by
          intro he
          have := congrArg List.length he
          simp only [List.length_take, List.length_nil] at this
          omega
        have hsp := (List.take_append_drop n c.writeBuffer).symm
        by_cases hw : c.writeBuffer.drop n = []
        · have he : List.isEmpty (c.writeBuffer.drop n) = true := by simp [hw]
          have ht : c.writeBuffer = c.writeBuffer.take n := by rw [hw, List.append_nil] at hsp; exact hsp
          split at h
          · rename_i hc
            simp only [completeWrite, h0, if_false, he, if_true] at h
            cases h
            rw [hw]
            exact .written hc hne ht (advance_cases ..)
          · rename_i hc
            simp only [completeFlush, h0, if_false, he, if_true] at h
            cases h
            exact .wrote (T := [.flushed (.ok ())]) (.inr hc) hne hsp (.inr ⟨hc, hw, rfl, by rw [hw]⟩)
          · cases h
        · have he : List.isEmpty (c.writeBuffer.drop n) = false := by simpa using hw
          split at h
          · rename_i hc
            simp only [completeWrite, h0, if_false, he] at h
            cases h
            exact .wrote (T := []) (.inl hc) hne hsp (.inl ⟨hw, rfl, rfl⟩)
          · rename_i hc
            simp only [completeFlush, h0, if_false, he] at h
            cases h
            exact .wrote (T := []) (.inr hc) hne hsp (.inl ⟨hw, rfl, rfl⟩)
          · cases h
    · cases h
  | fail =>
    simp only [step] at h
    split at h
    · rename_i hc; cases h; exact .ended rfl (.inr (.inr (.inr (.inl ⟨.inl hc, rfl, rfl⟩))))
    · rename_i hc; cases h; exact .ended rfl (.inr (.inr (.inr (.inl ⟨.inr hc, rfl, rfl⟩))))
    · rename_i hc; cases h; exact .ended rfl (.inr (.inr (.inr (.inr ⟨hc, rfl, rfl⟩))))
    · cases h
  | drop =>
    simp only [step] at h
    split at h
    · rename_i hc; cases h; exact .dropped (.inl hc) rfl
    · rename_i hc; cases h; exact .dropped (.inr (.inl hc)) rfl
    · rename_i hc; cases h; exact .dropped (.inr (.inr hc)) rfl
    · cases h

end FullStream

end ImapFlow
