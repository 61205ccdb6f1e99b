import Verif.Proofs.Ends

/-!
# A stream or a session is stopped for good only if something says so
-/

namespace ImapFlow

variable {K σ ε ev ι : Type}

/-- The positions in which nothing can be done anymore. -/
def FullCtl.final : FullCtl → Bool
  | .at .dead | .hung | .broken => true
  | _ => false

theorem FullStream.deliver_visible {M : Machine σ ε ev ι} {c c1 : FullStream K σ} {bytes : Bytes} {items : List (FullItem ε ev ι)}
    (h : c.deliver M bytes = .error (c1, items)) : ∃ i ∈ items, i.leaves = some c1.ctl := by
  unfold FullStream.deliver at h
  split at h
  · simp at h
  · split at h
    · simp only [Except.error.injEq, Prod.mk.injEq] at h
      rw [← h.2, ← h.1]; exact ⟨_, List.mem_singleton_self _, rfl⟩
    · simp at h

theorem FullStream.provideInput_visible {M : Machine σ ε ev ι} {c c1 : FullStream K σ} {items : List (FullItem ε ev ι)}
    (h : c.provideInput M = .error (c1, items)) : ∃ i ∈ items, i.leaves = some c1.ctl := by
  unfold FullStream.provideInput at h
  split at h
  · split at h
    · rename_i x hx
      simp only [Except.error.injEq] at h
      subst h
      exact deliver_visible hx
    · simp at h
  · split at h
    · simp only [Except.error.injEq, Prod.mk.injEq] at h
      rw [← h.2, ← h.1]; exact ⟨_, List.mem_singleton_self _, rfl⟩
    · simp only [Except.error.injEq, Prod.mk.injEq] at h
      rw [← h.2, ← h.1]; exact ⟨_, List.mem_singleton_self _, rfl⟩
    · exact deliver_visible h

theorem FullStream.advance_visible (M : Machine σ ε ev ι) (c : FullStream K σ) (hd : (c.advance M).1.ctl.final = true) :
    ∃ i ∈ (c.advance M).2, i.leaves = some (c.advance M).1.ctl := by
  unfold FullStream.advance at hd ⊢
  split at hd
  · rename_i x hx
    exact FullStream.provideInput_visible hx
  · rename_i c1 items hx
    dsimp only at hd ⊢
    split at hd
    · exact ⟨_, List.mem_append_right _ (List.mem_singleton_self _), rfl⟩
    · exfalso
      split at hd
      · simp [FullCtl.final] at hd
      · simp [FullCtl.final] at hd
      · split at hd
        · simp [FullCtl.final] at hd
        · split at hd <;> simp [FullCtl.final] at hd

theorem FullStream.step_visible {M : Machine σ ε ev ι} {c c' : FullStream K σ} {a : StreamAct ι}
    {items : List (FullItem ε ev ι)} (h : FullStream.step M c a = some (c', items)) (hd : c'.ctl.final = true) :
    ∃ i ∈ items, i.leaves = some c'.ctl := by
  have key : ∀ (x : FullStream K σ × List (FullItem ε ev ι)), some x = some (c', items) →
      (x.1.ctl.final = true → ∃ i ∈ x.2, i.leaves = some x.1.ctl) → ∃ i ∈ items, i.leaves = some c'.ctl := by
    intro x hx hr
    simp only [Option.some.injEq] at hx; rw [hx] at hr; exact hr hd
  have adv : ∀ (d : FullStream K σ) (i : FullItem ε ev ι), (d.advance M).1.ctl.final = true →
      ∃ j ∈ i :: (d.advance M).2, j.leaves = some (d.advance M).1.ctl := by
    intro d i h
    obtain ⟨j, hj, hl⟩ := FullStream.advance_visible M d h
    exact ⟨j, List.mem_cons_of_mem _ hj, hl⟩
  cases a with
  | user op =>
    simp only [FullStream.step] at h
    split at h
    · rename_i hi
      split at h
      · exact key _ h fun _ => ⟨_, List.mem_cons_of_mem _ (List.mem_singleton_self _), rfl⟩
      · exact key _ h (by simp [hi, FullCtl.final])
    · simp at h
  | callNext =>
    simp only [FullStream.step] at h
    split at h
    · exact key _ h (adv _ _)
    · simp at h
  | callFlush =>
    simp only [FullStream.step] at h
    split at h
    · rename_i hi
      refine key _ h ?_
      have hc : (c.handleOutput []).1.ctl = .at .idle := by
        unfold FullStream.handleOutput
        split
        · exact hi
        · split <;> exact hi
      unfold FullStream.startFlush
      dsimp only
      split <;> simp [hc, FullCtl.final]
    · simp at h
  | read bytes =>
    have cr : (FullStream.completeRead M c bytes).1.ctl.final = true →
        ∃ i ∈ (FullStream.completeRead M c bytes).2, i.leaves = some (FullStream.completeRead M c bytes).1.ctl := by
      unfold FullStream.completeRead
      dsimp only
      split
      · simp [FullCtl.final]
      · exact adv _ _
    simp only [FullStream.step] at h
    split at h
    · exact key _ h cr
    · exact key _ h cr
    · simp at h
  | write n =>
    simp only [FullStream.step] at h
    split at h
    · split at h
      · rename_i hc
        refine key _ h ?_
        unfold FullStream.completeWrite
        dsimp only
        split
        · simp [FullCtl.final]
        · split
          · exact adv _ _
          · simp [hc, FullCtl.final]
      · rename_i hc
        refine key _ h ?_
        unfold FullStream.completeFlush
        dsimp only
        split
        · simp [FullCtl.final]
        · split <;> simp [hc, FullCtl.final]
      · simp at h
    · simp at h
  | fail =>
    simp only [FullStream.step] at h
    split at h
    all_goals first | (exact key _ h (by simp [FullCtl.final])) | simp at h
  | drop =>
    simp only [FullStream.step] at h
    split at h
    all_goals first | (exact key _ h (by simp [FullCtl.final])) | simp at h


theorem Proxy.step_visible {L : Lib} {g : HandleGenerator} {p p' : Proxy K} {a : ProxyAct} {items : List ProxyItem}
    (h : p.step L g a = some (p', items)) (k : Bool) (hk : p'.IsLeft k) : ∃ i ∈ items, i.leaves = some k := by
  have client : ∀ {c c' : FullStream K Server} {act : StreamAct ServerOp} {its}, c.step (serverMachine L) act = some (c', its) →
      (c'.ctl = .at .dead → ∃ i ∈ its.map ProxyItem.ofClient, i.leaves = some true) ∧
      (c'.ctl = .hung → ∃ i ∈ its.map ProxyItem.ofClient, i.leaves = some false) := by
    intro c c' act its hs
    refine ⟨fun hd => ?_, fun hd => ?_⟩
    all_goals
      obtain ⟨i, hi, hl⟩ := FullStream.step_visible hs (by rw [hd]; rfl)
      rw [hd] at hl
      refine ⟨_, List.mem_map_of_mem hi, ?_⟩
      unfold FullItem.leaves at hl
      split at hl <;> simp at hl <;> rfl
  have server : ∀ {c c' : FullStream K Client} {act : StreamAct ClientOp} {its}, c.step (clientMachine L) act = some (c', its) →
      (c'.ctl = .at .dead → ∃ i ∈ its.map ProxyItem.ofServer, i.leaves = some true) ∧
      (c'.ctl = .hung → ∃ i ∈ its.map ProxyItem.ofServer, i.leaves = some false) := by
    intro c c' act its hs
    refine ⟨fun hd => ?_, fun hd => ?_⟩
    all_goals
      obtain ⟨i, hi, hl⟩ := FullStream.step_visible hs (by rw [hd]; rfl)
      rw [hd] at hl
      refine ⟨_, List.mem_map_of_mem hi, ?_⟩
      unfold FullItem.leaves at hl
      split at hl <;> simp at hl <;> rfl
  have left : ∀ {A : List ProxyItem} {p : Panic}, (.dead : Proxy K).IsLeft k → ∃ i ∈ A ++ [.panicked p], i.leaves = some k := by
    intro A p hk
    cases k with
    | false => cases hk
    | true => exact ⟨_, List.mem_append_right _ (List.mem_singleton_self _), rfl⟩
  have dead : (.dead : Proxy K).IsLeft k → k = true := by cases k <;> intro h <;> first | rfl | cases h
  have hung : (.hung : Proxy K).IsLeft k → k = false := by cases k <;> intro h <;> first | rfl | cases h
  unfold Proxy.step at h
  split at h
  · split at h
    · cases h
    · rename_i s its hs
      dsimp only at h
      split at h
      · rename_i hd
        cases h; rw [dead hk]; exact (server hs).1 hd
      · split at h
        · rename_i hd
          cases h; rw [hung hk]; exact (server hs).2 hd
        · split at h
          · cases h; cases k <;> cases hk
          · split at h
            · cases h; exact left hk
            · rename_i q hq
              cases h
              unfold Proxy.afterGreeting at hq
              split at hq
              · split at hq
                · cases hq
                · cases hq; cases k <;> cases hk
              · cases hq; cases k <;> cases hk
              · cases hq; cases k <;> cases hk
  · split at h
    · cases h
    · rename_i c its hs
      dsimp only at h
      split at h
      · rename_i hd
        cases h; rw [dead hk]; exact (client hs).1 hd
      · split at h
        · rename_i hd
          cases h; rw [hung hk]; exact (client hs).2 hd
        · split at h
          · cases h; cases k <;> cases hk
          · cases h
            unfold Proxy.clientBranch at hk ⊢
            dsimp only at hk ⊢
            split at hk
            · rw [← List.append_assoc]
              exact left hk
            · exfalso
              split at hk <;> cases k <;> cases hk
  · split at h
    · cases h
    · rename_i s its hs
      dsimp only at h
      split at h
      · rename_i hd
        cases h; rw [dead hk]; exact (server hs).1 hd
      · split at h
        · rename_i hd
          cases h; rw [hung hk]; exact (server hs).2 hd
        · split at h
          · cases h; cases k <;> cases hk
          · cases h
            unfold Proxy.serverBranch at hk ⊢
            dsimp only at hk ⊢
            split at hk
            · rw [← List.append_assoc]
              exact left hk
            · exfalso
              split at hk <;> cases k <;> cases hk
  · cases h

theorem Proxy.run_visible {L : Lib} {g : HandleGenerator} {p p' : Proxy K} {as : List ProxyAct} {T : List ProxyItem} (k : Bool)
    (h : p.run L g as = some (p', T)) (hp : ¬ p.IsLeft k) (hk : p'.IsLeft k) : ∃ i ∈ T, i.leaves = some k := by
  induction as generalizing p T with
  | nil => cases h; exact absurd hk hp
  | cons a as ih =>
    simp only [Proxy.run] at h
    split at h
    · cases h
    · rename_i p1 items h1
      split at h
      · cases h
      · rename_i p2 T2 h2
        cases h
        by_cases hx : p1.IsLeft k
        · obtain ⟨i, hi, he⟩ := Proxy.step_visible h1 k hx
          exact ⟨i, List.mem_append_left _ hi, he⟩
        · obtain ⟨i, hi, he⟩ := ih h2 hx
          exact ⟨i, List.mem_append_right _ hi, he⟩

end ImapFlow
