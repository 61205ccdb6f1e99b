import Verif.Proofs.FullStreamIo
import Verif.Model.Proxy
import Verif.Spec.FullTrace

/-!
# Only `flush` leads into `flush`, and only writing writes
-/

namespace ImapFlow

variable {K σ ε ev ι : Type}

/-- How many bytes the socket accepts. -/
def StreamAct.accepted : StreamAct ι → Nat
  | .write n => n
  | _ => 0

namespace FullStream

theorem Advanced.not_flushing {M : Machine σ ε ev ι} {c c' : FullStream K σ} {T : List (FullItem ε ev ι)}
    (h : Advanced M c c' T) : c'.ctl ≠ .at .flushing ∧ streamWrote (streamPart T) = [] := by
  have hp : ∀ {b : Bytes} {s s' : σ} {D : List (StreamItem ε ev ι)} (E : List (FullItem ε ev ι)), Provides M b s s' D →
      streamWrote (streamPart (D.map .stream ++ E)) = streamWrote (streamPart E) := by
    intro b s s' D E h
    rcases h with ⟨-, -, rfl⟩ | ⟨-, -, rfl⟩ <;> simp [streamPart, streamWrote, FullItem.stream?]
  cases h with
  | hung h1 h2 h3 => subst h3; simp [streamPart, streamWrote, FullItem.stream?]
  | broken h1 h2 h3 => subst h3; simp [streamPart, streamWrote, FullItem.stream?]
  | inputPanic h1 h2 h3 => subst h3; simp [streamPart, streamWrote, FullItem.stream?]
  | nextPanic h1 h2 h3 h4 => subst h4; rw [hp _ h2]; simp [streamPart, streamWrote, FullItem.stream?]
  | @returned tls rest b D s1 s2 r h1 h2 h3 h4 h5 =>
    subst h5
    rw [List.map_append, hp _ h2]
    refine ⟨by simp, ?_⟩
    rcases r with (_ | _) | _ <;> simp [streamPart, streamWrote, FullItem.stream?, returns]
  | waits h1 h2 h3 h4 h5 =>
    subst h5
    rw [List.map_append, hp _ h2]
    refine ⟨?_, by simp [streamPart, streamWrote, FullItem.stream?]⟩
    dsimp only
    split <;> simp
  | refused h1 h2 h3 h4 h5 =>
    subst h5
    rw [List.map_append, List.append_assoc, hp _ h2]
    simp [streamPart, streamWrote, FullItem.stream?]

/-- Only `flush` leads into `flush`, and only writing writes. -/
theorem step_flushing {M : Machine σ ε ev ι} {c c' : FullStream K σ} {a : StreamAct ι} {T : List (FullItem ε ev ι)}
    (h : c.step M a = some (c', T)) :
    (a ≠ .callFlush → c.ctl ≠ .at .flushing → c'.ctl ≠ .at .flushing) ∧
    (streamWrote (streamPart T)).length = a.accepted := by
  have hadv : ∀ c : FullStream K σ, (c.advance M).1.ctl ≠ .at .flushing := fun c => (advance_cases M c).not_flushing.1
  have hwr : ∀ c : FullStream K σ, streamWrote (streamPart (c.advance M).2) = [] :=
    fun c => (advance_cases M c).not_flushing.2
  cases a with
  | user op =>
    simp only [step] at h
    repeat' split at h
    all_goals cases h
    all_goals simp [streamPart, streamWrote, FullItem.stream?, StreamAct.accepted]
  | callNext =>
    simp only [step] at h
    repeat' split at h
    all_goals cases h
    refine ⟨fun _ _ => hadv c, ?_⟩
    show (streamWrote (streamPart (c.advance M).2)).length = 0
    simp [hwr]
  | callFlush =>
    simp only [step] at h
    split at h
    · injection h with h
      unfold startFlush at h
      dsimp only at h
      split at h <;> cases h <;> simp [streamPart, streamWrote, FullItem.stream?, StreamAct.accepted]
    · cases h
  | read b =>
    have key : some (completeRead M c b) = some (c', T) → (c.ctl ≠ .at .flushing → c'.ctl ≠ .at .flushing) ∧
        (streamWrote (streamPart T)).length = 0 := by
      intro h
      injection h with h
      unfold completeRead at h
      dsimp only at h
      split at h
      · cases h; simp [streamPart, streamWrote, FullItem.stream?]
      · cases h
        refine ⟨fun _ => hadv _, ?_⟩
        exact congrArg List.length (hwr _)
    simp only [step] at h
    split at h
    · exact ⟨fun _ => (key h).1, (key h).2⟩
    · exact ⟨fun _ => (key h).1, (key h).2⟩
    · cases h
  | write n =>
    simp only [step] at h
    split at h
    · rename_i hn
      have hl : (c.writeBuffer.take n).length = n := by simp [hn]
      split at h
      · rename_i hc
        injection h with h
        unfold completeWrite at h
        dsimp only at h
        repeat' split at h
        · cases h; simp [streamPart, streamWrote, FullItem.stream?, StreamAct.accepted, hl]
        · cases h
          refine ⟨fun _ _ => hadv _, ?_⟩
          show (c.writeBuffer.take n ++ streamWrote (streamPart (advance M _).2)).length = n
          rw [hwr, List.append_nil, hl]
        · cases h
          refine ⟨fun _ h => h, ?_⟩
          simp [streamPart, streamWrote, FullItem.stream?, StreamAct.accepted, hn]
      · rename_i hc
        injection h with h
        unfold completeFlush at h
        dsimp only at h
        repeat' split at h
        all_goals cases h
        all_goals refine ⟨fun _ h => absurd hc h, ?_⟩
        all_goals simp [streamPart, streamWrote, FullItem.stream?, StreamAct.accepted, hn]
      · cases h
    · cases h
  | fail =>
    simp only [step] at h
    repeat' split at h
    all_goals cases h
    all_goals simp [streamPart, streamWrote, FullItem.stream?, StreamAct.accepted]
  | drop =>
    simp only [step] at h
    repeat' split at h
    all_goals cases h
    all_goals simp [streamPart, streamWrote, FullItem.stream?, StreamAct.accepted]

end FullStream

/-! ## The proxy -/

/-- The proxy does not call `flush`. -/
def Proxy.NoFlush : Proxy K → Prop
  | .greeting _ s => s.ctl ≠ .at .flushing
  | .conversation c s => c.ctl ≠ .at .flushing ∧ s.ctl ≠ .at .flushing
  | _ => True

theorem IoAct.not_flush {a : IoAct} : (a.toStream : StreamAct ι) ≠ .callFlush := by
  cases a <;> nofun

theorem FullStream.dropFuture_flushing {c : FullStream K σ} (h : c.ctl ≠ .at .flushing) :
    (c.dropFuture (ε := ε) (ev := ev) (ι := ι)).1.ctl ≠ .at .flushing := by
  unfold FullStream.dropFuture
  split <;> simp [h]

theorem Proxy.new_noFlush (t : Option (Tls K)) (s : σ) : (FullStream.new t s).ctl ≠ .at .flushing := by
  cases t <;> simp [FullStream.new, FullStream.insecure, FullStream.secure]

theorem Proxy.step_noFlush {L : Lib} {g : HandleGenerator} {p p' : Proxy K} {a : ProxyAct} {T : List ProxyItem}
    (hp : p.NoFlush) (h : p.step L g a = some (p', T)) : p'.NoFlush := by
  unfold Proxy.step at h
  split at h
  · rename_i t u act
    split at h
    · cases h
    · rename_i u' items hs
      have hu := (FullStream.step_flushing hs).1 IoAct.not_flush hp
      dsimp only at h
      repeat' split at h
      all_goals first | cases h; trivial | skip
      rename_i hq
      cases h
      unfold Proxy.afterGreeting at hq
      repeat' split at hq
      all_goals first | cases hq; trivial | skip
      all_goals cases hq
      all_goals exact ⟨Proxy.new_noFlush _ _, hu⟩
  · rename_i d u act
    split at h
    · cases h
    · rename_i d' items hs
      have hd := (FullStream.step_flushing hs).1 IoAct.not_flush hp.1
      have hu := FullStream.dropFuture_flushing (ε := ClientError) (ev := ClientEvent) (ι := ClientOp) hp.2
      dsimp only at h
      repeat' split at h
      all_goals first | cases h; trivial | skip
      · cases h; exact ⟨hd, hp.2⟩
      · cases h
        unfold Proxy.clientBranch
        dsimp only
        repeat' split
        all_goals first | trivial | exact ⟨hd, hu⟩
  · rename_i d u act
    split at h
    · cases h
    · rename_i u' items hs
      have hd := (FullStream.step_flushing hs).1 IoAct.not_flush hp.2
      have hu := FullStream.dropFuture_flushing (ε := ServerError) (ev := ServerEvent) (ι := ServerOp) hp.1
      dsimp only at h
      repeat' split at h
      all_goals first | cases h; trivial | skip
      · cases h; exact ⟨hp.1, hd⟩
      · cases h
        unfold Proxy.serverBranch
        dsimp only
        repeat' split
        all_goals first | trivial | exact ⟨hu, hd⟩
  · cases h

theorem Proxy.run_noFlush {L : Lib} {g : HandleGenerator} {p p' : Proxy K} {as : List ProxyAct} {T : List ProxyItem}
    (hp : p.NoFlush) (h : p.run L g as = some (p', T)) : p'.NoFlush := by
  induction as generalizing p T with
  | nil => cases h; exact hp
  | cons a as ih =>
    simp only [Proxy.run] at h
    split at h
    · cases h
    · rename_i p1 T1 hs
      split at h
      · cases h
      · rename_i p2 T2 hr
        cases h
        exact ih (Proxy.step_noFlush hp hs) hr

/-- The socket fails or is closed. -/
theorem FullStream.step_closed {M : Machine σ ε ev ι} {c c' : FullStream K σ} {act : IoAct} {T : List (FullItem ε ev ι)}
    (ha : act ∈ [.fail, .read [], .write 0]) (hf : c.ctl ≠ .at .flushing) (h : c.step M act.toStream = some (c', T)) :
    c'.ctl = .at .idle ∧ (nextResult T = some (.error .io) ∨ nextResult T = some (.error .closed)) := by
  simp only [List.mem_cons, List.not_mem_nil, or_false] at ha
  rcases ha with rfl | rfl | rfl
  · simp only [IoAct.toStream, step] at h
    split at h
    · cases h; exact ⟨rfl, .inl rfl⟩
    · cases h; exact ⟨rfl, .inl rfl⟩
    · rename_i hc; exact absurd hc hf
    · cases h
  · simp only [IoAct.toStream, step] at h
    split at h
    · cases h; exact ⟨rfl, .inr rfl⟩
    · cases h; exact ⟨rfl, .inr rfl⟩
    · cases h
  · simp only [IoAct.toStream, step] at h
    split at h
    · split at h
      · cases h; exact ⟨rfl, .inr rfl⟩
      · rename_i hc; exact absurd hc hf
      · cases h
    · cases h

/-- Then the conversation is over. -/
theorem Proxy.step_closed {L : Lib} {g : HandleGenerator} {p p' : Proxy K} {act : IoAct} {T : List ProxyItem}
    (hp : p.NoFlush) (ha : act ∈ [.fail, .read [], .write 0])
    (h : p.step L g (.client act) = some (p', T) ∨ p.step L g (.server act) = some (p', T)) : p' = .over := by
  rcases h with h | h
  · unfold Proxy.step at h
    split at h
    · contradiction
    · rename_i d u act' hx
      cases hx
      split at h
      · cases h
      · rename_i d' items hs
        obtain ⟨h1, h2⟩ := FullStream.step_closed ha hp.1 hs
        simp only [h1] at h
        rcases h2 with h2 | h2 <;> simp [h2, clientBranch, handleClientEvent] at h <;> exact h.1.symm
    · rename_i hx; cases hx
    · cases h
  · unfold Proxy.step at h
    split at h
    · rename_i t u act' hx
      cases hx
      split at h
      · cases h
      · rename_i d' items hs
        obtain ⟨h1, h2⟩ := FullStream.step_closed ha hp hs
        simp only [h1] at h
        rcases h2 with h2 | h2 <;> simp [h2, afterGreeting] at h <;> exact h.1.symm
    · rename_i hx; cases hx
    · rename_i d u act' hx
      cases hx
      split at h
      · cases h
      · rename_i d' items hs
        obtain ⟨h1, h2⟩ := FullStream.step_closed ha hp.2 hs
        simp only [h1] at h
        rcases h2 with h2 | h2 <;> simp [h2, serverBranch, handleServerEvent] at h <;> exact h.1.symm
    · cases h

end ImapFlow
