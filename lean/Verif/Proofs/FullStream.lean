import Verif.Model.FullStream
import Verif.Proofs.Tls

/-!
# The whole stream: `decrypt` as a function, and the case without TLS
-/

namespace ImapFlow

variable {K σ ε ev ι : Type}

/-! ## `decrypt` -/

/-- What the function says about the loops. -/
def Decrypted.Meets : Decrypted K → DecryptState K → Prop
  | .hang, s => ∀ r, ¬ s.Ends r
  | .broken, s => s.Ends (.error .tls)
  | .ok tls readBuffer plain, s => s.Ends (.ok (tls, readBuffer, plain))

theorem Decrypted.Meets.of_steps {d : Decrypted K} {s : DecryptState K} (n : Nat) (h : d.Meets (s.steps n)) :
    d.Meets s := by
  cases d with
  | broken => exact DecryptState.Ends.of_steps n h
  | ok => exact DecryptState.Ends.of_steps n h
  | hang =>
    rintro r ⟨m, hm⟩
    refine h r ⟨m, ?_⟩
    rw [← DecryptState.steps_add, Nat.add_comm, DecryptState.steps_add, hm, DecryptState.steps_done]

theorem decrypt_meets_from (tls : Tls K) (readBuffer plain : Bytes) (hs : 0 < tls.readSize) :
    (tls.decrypt readBuffer plain).Meets (.outer tls readBuffer plain) := by
  fun_induction Tls.decrypt tls readBuffer plain with
  | case1 tls rb plain hw h hp =>
    refine ⟨1, ?_⟩
    simp [DecryptState.steps, DecryptState.step, hw, hp]
  | case2 tls rb plain hw h t hp hc =>
    intro r
    refine DecryptState.Stuck.not_ends 1 ?_ r
    simp [DecryptState.steps, DecryptState.step, hw, hp, DecryptState.Stuck, hc]
  | case3 tls rb plain hw h t hp hc ih =>
    have hc : t.closed = false := by simpa using hc
    have ht : t.readSize = tls.readSize := by
      simp only [Tls.processNewPackets, Tls.readTls] at hp
      split at hp
      · cases hp
      · cases hp; rfl
    obtain ⟨n, hn⟩ := DecryptState.inner_drains t (rb.drop (tls.readTls rb).2) plain hc
    refine .of_steps (n + 1) ?_
    have : (DecryptState.outer tls rb plain).step = .inner t (rb.drop (tls.readTls rb).2) plain := by
      simp [DecryptState.step, hw, hp]
    rw [DecryptState.steps, this, hn]
    exact ih (by rw [ht]; exact hs)
  | case4 tls rb plain hw h =>
    exfalso
    apply h
    simp only [Bool.and_eq_true, Bool.not_eq_true', List.isEmpty_eq_false_iff] at hw
    have := List.length_pos_iff.2 hw.2
    simp only [Tls.readTls]
    omega
  | case5 tls rb plain hw =>
    refine ⟨1, ?_⟩
    simp [DecryptState.steps, DecryptState.step, hw]

/-- The function `decrypt` gives the result of the loops. -/
theorem decrypt_meets (tls : Tls K) (readBuffer : Bytes) (hs : 0 < tls.readSize) :
    (tls.decrypt readBuffer []).Meets (.start tls readBuffer) := decrypt_meets_from tls readBuffer [] hs

theorem decrypt_hang {tls : Tls K} {readBuffer : Bytes} (hs : 0 < tls.readSize)
    (h : ∀ r, ¬ (DecryptState.start tls readBuffer).Ends r) : tls.decrypt readBuffer [] = .hang := by
  have := decrypt_meets tls readBuffer hs
  cases hd : tls.decrypt readBuffer [] with
  | hang => rfl
  | broken => rw [hd] at this; exact (h _ this).elim
  | ok => rw [hd] at this; exact (h _ this).elim

theorem decrypt_broken {tls : Tls K} {readBuffer : Bytes} {e : TlsError} (hs : 0 < tls.readSize)
    (h : (DecryptState.start tls readBuffer).Ends (.error e)) : tls.decrypt readBuffer [] = .broken := by
  have := decrypt_meets tls readBuffer hs
  cases hd : tls.decrypt readBuffer [] with
  | hang => rw [hd] at this; exact (this _ h).elim
  | broken => rfl
  | ok => rw [hd] at this; cases h.unique this

theorem decrypt_ok {tls tls' : Tls K} {readBuffer rest plain : Bytes} (hs : 0 < tls.readSize)
    (h : (DecryptState.start tls readBuffer).Ends (.ok (tls', rest, plain))) :
    tls.decrypt readBuffer [] = .ok tls' rest plain := by
  have := decrypt_meets tls readBuffer hs
  cases hd : tls.decrypt readBuffer [] with
  | hang => rw [hd] at this; exact (this _ h).elim
  | broken => rw [hd] at this; cases h.unique this
  | ok => rw [hd] at this; cases h.unique this; rfl

/-! ## Without TLS -/

/-- A stream without TLS. -/
def FullStream.ofPlain (c : StreamConf σ) : FullStream K σ :=
  { tls := none, readBuffer := c.readBuffer, writeBuffer := c.writeBuffer, state := c.state, ctl := .at c.ctl }

/-- The same result for the whole stream. -/
def liftPlain (x : StreamConf σ × List (StreamItem ε ev ι)) : FullStream K σ × List (FullItem ε ev ι) :=
  (.ofPlain x.1, x.2.map .stream)

namespace FullStream

theorem advance_ofPlain (M : Machine σ ε ev ι) (c : StreamConf σ) :
    (ofPlain c : FullStream K σ).advance M = liftPlain (c.advance M) := by
  obtain ⟨rb, wb, st, ctl⟩ := c
  simp only [advance, provideInput, deliver, ofPlain, StreamConf.advance, StreamConf.provideInput]
  by_cases hrb : rb.isEmpty
  · simp only [hrb, if_true]
    rw [List.isEmpty_iff] at hrb
    subst hrb
    cases M.next st with
    | error p => rfl
    | ok x =>
      obtain ⟨s, r⟩ := x
      rcases r with (io | e) | e
      · cases io <;> simp only [handleOutput, outputBytes, List.append_nil] <;> split <;> rfl
      · rfl
      · rfl
  · simp only [hrb]
    cases M.enqueueInput st rb with
    | error p => rfl
    | ok s1 =>
      simp only [Bool.false_eq_true, if_false]
      cases M.next s1 with
      | error p => rfl
      | ok x =>
        obtain ⟨s, r⟩ := x
        rcases r with (io | e) | e
        · cases io <;> simp only [handleOutput, outputBytes, List.append_nil] <;> split <;> rfl
        · rfl
        · rfl

theorem step_ofPlain (M : Machine σ ε ev ι) (c : StreamConf σ) (a : StreamAct ι) :
    (ofPlain c : FullStream K σ).step M a = (c.step M a).map liftPlain := by
  cases a with
  | user op =>
    cases hc : c.ctl <;> simp only [step, ofPlain, StreamConf.step, hc] <;> try rfl
    cases M.user c.state op <;> rfl
  | callNext =>
    have h := advance_ofPlain (K := K) M c
    cases hc : c.ctl <;> simp only [step, StreamConf.step, hc, h] <;> simp only [ofPlain, hc] <;> rfl
  | callFlush =>
    cases hc : c.ctl <;> simp only [step, ofPlain, StreamConf.step, hc] <;> try rfl
    obtain ⟨rb, wb, st, ctl⟩ := c
    cases hc
    simp only [startFlush, handleOutput, List.append_nil]
    split <;> rfl
  | read b =>
    have h := advance_ofPlain (K := K) M { c with readBuffer := c.readBuffer ++ b }
    have hc : (ofPlain c : FullStream K σ).completeRead M b = liftPlain (c.completeRead M b) := by
      simp only [completeRead, StreamConf.completeRead]
      split
      · rfl
      · rw [show ({ (ofPlain c : FullStream K σ) with readBuffer := (ofPlain c : FullStream K σ).readBuffer ++ b }) =
          ofPlain { c with readBuffer := c.readBuffer ++ b } from rfl, h]
        rfl
    cases hk : c.ctl <;> simp only [step, StreamConf.step, hk, hc] <;> simp only [ofPlain, hk] <;> rfl
  | write n =>
    have h := advance_ofPlain (K := K) M { c with writeBuffer := c.writeBuffer.drop n }
    have hc : (ofPlain c : FullStream K σ).completeWrite M n = liftPlain (c.completeWrite M n) := by
      simp only [completeWrite, StreamConf.completeWrite]
      split
      · rfl
      · rw [show ({ (ofPlain c : FullStream K σ) with writeBuffer := (ofPlain c : FullStream K σ).writeBuffer.drop n }) =
          ofPlain { c with writeBuffer := c.writeBuffer.drop n } from rfl, h]
        by_cases hw : (c.writeBuffer.drop n).isEmpty <;> simp only [ofPlain, hw] <;> rfl
    have hf : (ofPlain c : FullStream K σ).completeFlush n = liftPlain (c.completeFlush (ε := ε) (ev := ev) (ι := ι) n) := by
      simp only [completeFlush, StreamConf.completeFlush]
      split
      · rfl
      · by_cases hw : (c.writeBuffer.drop n).isEmpty <;> simp only [ofPlain, hw] <;> rfl
    simp only [step, StreamConf.step, hc, hf]
    by_cases hn : n ≤ c.writeBuffer.length
    · cases hk : c.ctl <;> simp only [ofPlain, hn, hk] <;> rfl
    · simp only [ofPlain, hn]; rfl
  | fail => cases hc : c.ctl <;> simp only [step, ofPlain, StreamConf.step, hc] <;> rfl
  | drop => cases hc : c.ctl <;> simp only [step, ofPlain, StreamConf.step, hc] <;> rfl

/-- Without TLS the whole stream behaves like the model without TLS. -/
theorem run_ofPlain (M : Machine σ ε ev ι) (c : StreamConf σ) (as : List (StreamAct ι)) :
    (ofPlain c : FullStream K σ).run M as = (c.run M as).map liftPlain := by
  induction as generalizing c with
  | nil => rfl
  | cons a as ih =>
    simp only [run, StreamConf.run, step_ofPlain]
    cases c.step M a with
    | none => rfl
    | some x =>
      obtain ⟨c1, T⟩ := x
      simp only [Option.map_some, liftPlain, ih]
      cases c1.run M as with
      | none => rfl
      | some y => simp [liftPlain]

theorem run_insecure (M : Machine σ ε ev ι) (s : σ) (as : List (StreamAct ι)) :
    (insecure s : FullStream K σ).run M as = ((StreamConf.insecure s).run M as).map liftPlain :=
  run_ofPlain M (.insecure s) as

end FullStream

end ImapFlow
