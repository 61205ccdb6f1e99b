import Verif.Spec.HandleProcess
import Verif.Proofs.ClientTrace
import Verif.Proofs.ServerTrace
import Verif.Proofs.Lists

/-!
# Uniqueness of handles
-/

namespace ImapFlow

/-- The objects use their generator as intended. -/
structure HandleUser.Faithful (U : HandleUser) (gen : U.State → HandleGenerator) : Prop where
  new : ∀ g i, gen (U.new g i) = g
  call : ∀ s op s' obs, U.call s op = .ok (s', obs) →
    match U.handle obs with
    | some h => (gen s', h) = (gen s).generate
    | none => gen s' = gen s

/-- The number of handles of an instance. -/
def handleCount (i : Nat) (H : List (Nat × RawHandle)) : Nat := H.countP (fun x => x.1 == i)

theorem handleCount_append (i : Nat) (H H' : List (Nat × RawHandle)) :
    handleCount i (H ++ H') = handleCount i H + handleCount i H' := List.countP_append

/-- The `j`-th handle of the instance `i`. -/
def nthHandle (i j : Nat) : RawHandle := { generatorId := UInt64.ofNat i, handleId := UInt64.ofNat j }

structure ProcessInv {U : HandleUser} (gen : U.State → HandleGenerator) (P : Process U)
    (H : List (Nat × RawHandle)) : Prop where
  next : P.generators.nextHandleGeneratorId = UInt64.ofNat P.instances.length
  gens : ∀ i s, P.instances[i]? = some s →
    gen s = { generatorId := UInt64.ofNat i, nextHandleId := UInt64.ofNat (handleCount i H) }
  handles : ∀ x ∈ H, x.1 < P.instances.length ∧ ∃ j, j < handleCount x.1 H ∧ x.2 = nthHandle x.1 j

theorem UInt64.ofNat_succ' (n : Nat) : UInt64.ofNat n + 1 = UInt64.ofNat (n + 1) := by
  rw [UInt64.ofNat_add]; rfl

theorem UInt64.ofNat_inj' {a b : Nat} (ha : a < 2 ^ 64) (hb : b < 2 ^ 64) (h : UInt64.ofNat a = UInt64.ofNat b) :
    a = b := by
  have := congrArg UInt64.toNat h
  rw [UInt64.toNat_ofNat', UInt64.toNat_ofNat', Nat.mod_eq_of_lt ha, Nat.mod_eq_of_lt hb] at this
  exact this

/-- One step keeps the invariant and gives out a new handle at most. -/
theorem ProcessInv.step {U : HandleUser} {gen : U.State → HandleGenerator} (hU : U.Faithful gen) {P P' : Process U}
    {H hs : List (Nat × RawHandle)} {op : ProcessOp U} (h : ProcessInv gen P H) (hs1 : P.step op = .ok (P', hs)) :
    ProcessInv gen P' (H ++ hs) ∧ P.instances.length ≤ P'.instances.length ∧
    (hs = [] ∨ ∃ i, i < P.instances.length ∧ hs = [(i, nthHandle i (handleCount i H))]) := by
  obtain ⟨h1, h2, h3⟩ := h
  cases op with
  | create init =>
    simp only [Process.step, HandleGeneratorGenerator.generate, Except.ok.injEq, Prod.mk.injEq] at hs1
    obtain ⟨rfl, rfl⟩ := hs1
    refine ⟨⟨?_, ?_, ?_⟩, by simp, .inl rfl⟩
    · simp only [List.length_append, List.length_singleton, h1]
      exact UInt64.ofNat_succ' _
    · intro i s hs
      rw [List.append_nil]
      simp only at hs
      rw [List.getElem?_append] at hs
      split at hs
      · exact h2 i s hs
      · rename_i hlt
        have hi : i = P.instances.length := by
          rcases Nat.eq_zero_or_pos (i - P.instances.length) with hx | hx
          · omega
          · rw [List.getElem?_eq_none (by simp; omega)] at hs
            cases hs
        subst hi
        simp only [Nat.sub_self, List.getElem?_cons_zero, Option.some.injEq] at hs
        rw [← hs, hU.new, h1]
        have hc : handleCount P.instances.length H = 0 := by
          unfold handleCount
          rw [List.countP_eq_zero]
          intro x hx hxe
          have := (h3 x hx).1
          simp only [beq_iff_eq] at hxe
          omega
        rw [hc]; rfl
    · intro x hx
      rw [List.append_nil] at hx ⊢
      obtain ⟨h4, h5⟩ := h3 x hx
      exact ⟨by simp; omega, h5⟩
  | call i op =>
    simp only [Process.step] at hs1
    cases hi : P.instances[i]? with
    | none =>
      rw [hi] at hs1
      simp only [Except.ok.injEq, Prod.mk.injEq] at hs1
      obtain ⟨rfl, rfl⟩ := hs1
      exact ⟨by rw [List.append_nil]; exact ⟨h1, h2, h3⟩, Nat.le_refl _, .inl rfl⟩
    | some s =>
      rw [hi] at hs1
      simp only at hs1
      cases hc : U.call s op with
      | error p => rw [hc] at hs1; cases hs1
      | ok y =>
        obtain ⟨s', obs⟩ := y
        rw [hc] at hs1
        simp only [Except.ok.injEq, Prod.mk.injEq] at hs1
        obtain ⟨rfl, rfl⟩ := hs1
        have hf := hU.call s op s' obs hc
        have hlt : i < P.instances.length := (List.getElem?_eq_some_iff.mp hi).1
        have hg := h2 i s hi
        cases ho : U.handle obs with
        | none =>
          rw [ho] at hf
          simp only at hf
          simp only [Option.toList_none, List.map_nil, List.append_nil, List.length_set]
          refine ⟨⟨by simpa using h1, ?_, by simpa using h3⟩, Nat.le_refl _, .inl trivial⟩
          intro k t hk
          simp only [List.getElem?_set] at hk
          split at hk
          · rename_i hik
            subst hik
            cases hk
            rw [hf, hg]
          · exact h2 k t hk
        | some hd =>
          rw [ho] at hf
          simp only [HandleGenerator.generate, hg, Prod.mk.injEq] at hf
          obtain ⟨hf1, rfl⟩ := hf
          simp only [Option.toList_some, List.map_cons, List.map_nil, List.length_set]
          have hcnt : ∀ k, handleCount k (H ++ [(i, nthHandle i (handleCount i H))]) =
              handleCount k H + if i = k then 1 else 0 := by
            intro k
            rw [handleCount_append]
            congr 1
            unfold handleCount
            rw [List.countP_singleton]
            simp
          refine ⟨⟨by simpa using h1, ?_, ?_⟩, Nat.le_refl _, .inr ⟨i, hlt, rfl⟩⟩
          · intro k t hk
            simp only [List.getElem?_set] at hk
            have := hcnt k
            unfold nthHandle at this
            rw [this]
            split at hk
            · rename_i hik
              subst hik
              cases hk
              rw [hf1, if_pos rfl]
              congr 1
              exact UInt64.ofNat_succ' _
            · rename_i hik
              rw [if_neg hik]
              exact h2 k t hk
          · intro x hx
            rw [List.length_set]
            have hcx := hcnt x.1
            unfold nthHandle at hcx
            rcases List.mem_append.mp hx with hx | hx
            · obtain ⟨h4, j, h5, h6⟩ := h3 x hx
              exact ⟨h4, j, by rw [hcx]; omega, h6⟩
            · rw [List.mem_singleton] at hx
              subst hx
              simp only at hcx ⊢
              exact ⟨hlt, handleCount i H, by rw [hcx, if_pos trivial]; omega, rfl⟩

/-- Handles do not repeat. -/
theorem ProcessInv.run {U : HandleUser} {gen : U.State → HandleGenerator} (hU : U.Faithful gen) {P P' : Process U}
    {H hs : List (Nat × RawHandle)} {ops : List (ProcessOp U)} (h : ProcessInv gen P H)
    (hr : P.run ops = .ok (P', hs)) (hn : (H.map (·.2)).Nodup)
    (hb : P'.instances.length ≤ 2 ^ 64) (hc : ∀ i, handleCount i (H ++ hs) ≤ 2 ^ 64) :
    ((H ++ hs).map (·.2)).Nodup := by
  induction ops generalizing P H hs with
  | nil =>
    simp only [Process.run, Except.ok.injEq, Prod.mk.injEq] at hr
    obtain ⟨rfl, rfl⟩ := hr
    simpa using hn
  | cons op ops ih =>
    have mono : ∀ (ops : List (ProcessOp U)) (Q : Process U) (H : List (Nat × RawHandle)) hs, ProcessInv gen Q H →
        Q.run ops = .ok (P', hs) → Q.instances.length ≤ P'.instances.length := by
      intro ops
      induction ops with
      | nil =>
        intro Q H hs _ hr
        simp only [Process.run, Except.ok.injEq, Prod.mk.injEq] at hr
        obtain ⟨rfl, -⟩ := hr
        exact Nat.le_refl _
      | cons op ops ih =>
        intro Q H hs hq hr
        rw [Process.run] at hr
        cases hst : Q.step op with
        | error p => rw [hst] at hr; cases hr
        | ok y =>
          obtain ⟨Q', hs1⟩ := y
          rw [hst] at hr
          simp only at hr
          obtain ⟨hq', hle, -⟩ := hq.step hU hst
          cases hrn : Q'.run ops with
          | error p => rw [hrn] at hr; cases hr
          | ok z =>
            obtain ⟨Q'', hs2⟩ := z
            rw [hrn] at hr
            simp only [Except.ok.injEq, Prod.mk.injEq] at hr
            obtain ⟨rfl, -⟩ := hr
            exact Nat.le_trans hle (ih Q' _ hs2 hq' hrn)
    rw [Process.run] at hr
    cases hst : P.step op with
    | error p => rw [hst] at hr; cases hr
    | ok y =>
      obtain ⟨Q, hs1⟩ := y
      rw [hst] at hr
      simp only at hr
      cases hrn : Q.run ops with
      | error p => rw [hrn] at hr; cases hr
      | ok z =>
        obtain ⟨Q', hs2⟩ := z
        rw [hrn] at hr
        simp only [Except.ok.injEq, Prod.mk.injEq] at hr
        obtain ⟨rfl, rfl⟩ := hr
        obtain ⟨hq, hle, hnew⟩ := h.step hU hst
        have hle' := mono ops Q _ _ hq hrn
        rw [← List.append_assoc] at hc ⊢
        refine ih hq hrn ?_ hc
        rcases hnew with rfl | ⟨i, hi, rfl⟩
        · simpa using hn
        · rw [List.map_append, List.nodup_append]
          refine ⟨hn, by simp, ?_⟩
          intro a ha b hb' hab
          simp only [List.map_cons, List.map_nil, List.mem_singleton] at hb'
          subst hb'
          obtain ⟨x, hx, rfl⟩ := List.mem_map.mp ha
          obtain ⟨h4, j, h5, h6⟩ := h.handles x hx
          rw [h6] at hab
          simp only [nthHandle, RawHandle.mk.injEq] at hab
          have hxi : x.1 = i := UInt64.ofNat_inj' (by omega) (by omega) hab.1
          rw [hxi] at h5
          have hci := hc i
          have hci2 : handleCount i H + 1 ≤ handleCount i (H ++ [(i, nthHandle i (handleCount i H))] ++ hs2) := by
            rw [handleCount_append, handleCount_append]
            have : handleCount i [(i, nthHandle i (handleCount i H))] = 1 := by simp [handleCount]
            omega
          have := UInt64.ofNat_inj' (by omega) (by omega) hab.2
          omega

/-! ## Clients and servers use their generator as intended -/

namespace Client

theorem progressSend_gen {L : Lib} {c c' : Client} {r} (h : progressSend L c = .ok (c', r)) :
    c'.handleGenerator = c.handleGenerator := by
  unfold progressSend at h
  split at h <;> (try split at h) <;> first | cases h; done | (cases h; rfl)

theorem progressReceive_gen {L : Lib} {c c' : Client} {r} (h : progressReceive L c = .ok (c', r)) :
    c'.handleGenerator = c.handleGenerator := by
  unfold progressReceive at h
  repeat' split at h
  all_goals first | (cases h; done) | (cases h; rfl)

theorem next_gen {L : Lib} {c c' : Client} {r} (h : c.next L = .ok (c', r)) :
    c'.handleGenerator = c.handleGenerator := by
  fun_induction Client.next L c with
  | case1 c p hs => cases h
  | case2 c c1 i hs => cases h; exact progressSend_gen hs
  | case3 c c1 e hs => cases h; exact progressSend_gen hs
  | case4 c c1 hs p hr => cases h
  | case5 c c1 hs c2 i hr => cases h; rw [progressReceive_gen hr, progressSend_gen hs]
  | case6 c c1 hs c2 e hr => cases h; rw [progressReceive_gen hr, progressSend_gen hs]
  | case7 c c1 hs c2 hr ih => rw [ih h, progressReceive_gen hr, progressSend_gen hs]

end Client

theorem clientUser_faithful (L : Lib) : (clientUser L).Faithful Client.handleGenerator := by
  refine ⟨fun _ _ => rfl, ?_⟩
  intro c op c' obs h
  cases op with
  | enqueueCommand command => cases h; rfl
  | enqueueInput bytes =>
    change (c.enqueueInput bytes).map _ = _ at h
    unfold Client.enqueueInput at h
    split at h <;> cases h <;> rfl
  | next =>
    change (c.next L).map _ = _ at h
    cases hn : c.next L with
    | error p => rw [hn] at h; cases h
    | ok y =>
      rw [hn] at h
      cases h
      exact Client.next_gen hn
  | setAuthenticateData data =>
    change (c.setAuthenticateData L data).map _ = _ at h
    unfold Client.setAuthenticateData at h
    split at h <;> cases h
    rfl
  | setIdleDone =>
    change (c.setIdleDone L).map _ = _ at h
    unfold Client.setIdleDone at h
    split at h <;> cases h
    rfl

namespace Server

theorem progressSend_gen {L : Lib} {s s' : Server} {r} (h : progressSend L s = (s', r)) :
    s'.handleGenerator = s.handleGenerator := by
  unfold progressSend at h
  split at h <;> cases h <;> rfl

theorem progressReceive_gen {L : Lib} {s s' : Server} {r} (h : progressReceive L s = .ok (s', r)) :
    s'.handleGenerator = s.handleGenerator := by
  unfold progressReceive literalFound discardCommand commandDecoded at h
  repeat' split at h
  all_goals first | (cases h; done) | (cases h; rfl)

theorem next_gen {L : Lib} {s s' : Server} {r} (h : s.next L = .ok (s', r)) :
    s'.handleGenerator = s.handleGenerator := by
  fun_induction Server.next L s with
  | case1 c c1 i hs => cases h; exact progressSend_gen hs
  | case2 c c1 e hs => cases h; exact progressSend_gen hs
  | case3 c c1 hs p hr => cases h
  | case4 c c1 hs c2 i hr => cases h; rw [progressReceive_gen hr, progressSend_gen hs]
  | case5 c c1 hs c2 e hr => cases h; rw [progressReceive_gen hr, progressSend_gen hs]
  | case6 c c1 hs c2 hr ih => rw [ih h, progressReceive_gen hr, progressSend_gen hs]

end Server

theorem serverUser_faithful (L : Lib) : (serverUser L).Faithful Server.handleGenerator := by
  refine ⟨fun _ _ => rfl, ?_⟩
  intro s op s' obs h
  cases op with
  | enqueueData d => cases h; rfl
  | enqueueStatus d => cases h; rfl
  | enqueueContinuationRequest d => cases h; rfl
  | authenticateContinue q =>
    obtain ⟨so, g, snd, rcv⟩ := s
    cases rcv <;> cases h <;> rfl
  | authenticateFinish st =>
    obtain ⟨so, g, snd, rcv⟩ := s
    cases rcv <;> cases h <;> rfl
  | idleAccept st =>
    obtain ⟨so, g, snd, rcv⟩ := s
    cases rcv <;> cases h <;> rfl
  | idleReject st =>
    obtain ⟨so, g, snd, rcv⟩ := s
    cases rcv <;> cases h <;> rfl
  | enqueueInput bytes =>
    change (s.enqueueInput bytes).map _ = _ at h
    unfold Server.enqueueInput at h
    split at h <;> cases h <;> rfl
  | next =>
    change (s.next L).map _ = _ at h
    cases hn : s.next L with
    | error p => rw [hn] at h; cases h
    | ok y =>
      rw [hn] at h
      cases h
      exact Server.next_gen hn

end ImapFlow
