import Verif.Spec.ServerTrace
import Verif.Proofs.ServerChunk

/-!
# Traces and histories of a server
-/

namespace ImapFlow

namespace Server

/-- Forget what a history does not show. -/
def eraseRes : Except Panic (Server × List SItem) → Except Panic (Server × List ServerObs)
  | .error p => .error p
  | .ok (s, T) => .ok (s, T.filterMap SItem.erase)

theorem nextTrace_eq (L : Lib) (s : Server) :
    s.nextTrace L =
      match progressSend L s with
      | (s1, .error (.io (.output b))) => .ok (s1, [.output b])
      | (s1, .error (.io .needMoreInput)) => .ok (s1, [.starved])
      | (s1, .error (.error e)) => .ok (s1, [.failed e []])
      | (s1, .ok (some event)) => .ok (s1, [.sent event])
      | (s1, .ok none) =>
        match progressReceive L s1 with
        | .error p => .error p
        | .ok (s2, .error (.io (.output b))) => .ok (s2, quietItems s ++ [.output b])
        | .ok (s2, .error (.io .needMoreInput)) => .ok (s2, quietItems s ++ [.starved])
        | .ok (s2, .error (.error e)) => .ok (s2, quietItems s ++ [.failed e (replies s1 s2)])
        | .ok (s2, .ok (some event)) => .ok (s2, quietItems s ++ [.received (consumed s1 s2) event])
        | .ok (s2, .ok none) =>
          match Server.nextTrace L s2 with
          | .error p => .error p
          | .ok (s3, items) => .ok (s3, quietItems s ++ .literal s2.seen (replies s1 s2) :: items) := by
  rw [Server.nextTrace]
  split <;> simp_all
  split <;> simp_all
  all_goals cases nextTrace L _ <;> rfl

theorem quietItems_erase (s : Server) : (quietItems s).filterMap SItem.erase = [] := by
  unfold quietItems
  split <;> rfl

theorem nextTrace_erase (L : Lib) (s : Server) :
    eraseRes (s.nextTrace L) = (s.next L).map fun (s, r) => (s, [.next r]) := by
  generalize hn : s.unread = n
  induction n using Nat.strongRecOn generalizing s with
  | _ n ih =>
    rw [Server.next_eq, nextTrace_eq]
    cases hs : progressSend L s with
    | mk s1 r =>
      have h1 := Server.progressSend_receiveState hs
      rcases r with (⟨_ | b⟩ | e) | _ | ev
      · simp [eraseRes, Except.map, SItem.erase]
      · simp [eraseRes, Except.map, SItem.erase]
      · simp [eraseRes, Except.map, SItem.erase]
      · cases hr : progressReceive L s1 with
        | error p => simp [eraseRes, Except.map, hr]
        | ok x =>
          obtain ⟨s2, r⟩ := x
          rcases r with (⟨_ | b⟩ | e) | _ | ev
          · simp [eraseRes, Except.map, SItem.erase, hr, quietItems_erase]
          · simp [eraseRes, Except.map, SItem.erase, hr, quietItems_erase]
          · simp [eraseRes, Except.map, SItem.erase, hr, quietItems_erase]
          · have h2 := Server.progressReceive_unread hr
            have h3 : s1.unread = s.unread := by simp [Server.unread, h1]
            have := ih _ (by omega) s2 rfl
            simp only [hr]
            rw [← this]
            cases nextTrace L s2 with
            | error p => rfl
            | ok x =>
              simp only [eraseRes, List.filterMap_append, quietItems_erase, List.nil_append]
              rw [List.filterMap_cons]; rfl
          · simp [eraseRes, Except.map, SItem.erase, hr, quietItems_erase]
      · simp [eraseRes, Except.map, SItem.erase]

theorem callTrace_erase (L : Lib) (s : Server) (op : ServerOp) :
    eraseRes (s.callTrace L op) = (s.call L op).map fun (s, o) => (s, [o]) := by
  cases op with
  | next =>
    unfold callTrace call
    simp only
    rw [nextTrace_erase]
    cases s.next L <;> rfl
  | enqueueData d => rfl
  | enqueueStatus d => rfl
  | enqueueContinuationRequest d => rfl
  | authenticateContinue d => rfl
  | enqueueInput b =>
    unfold callTrace call
    simp only
    cases s.enqueueInput b <;> rfl
  | authenticateFinish d =>
    unfold callTrace call
    simp only
    cases s.authenticateFinish d <;> rfl
  | idleAccept d =>
    unfold callTrace call
    simp only
    cases s.idleAccept d <;> rfl
  | idleReject d =>
    unfold callTrace call
    simp only
    cases s.idleReject d <;> rfl

/-- Erasing the trace of a list of calls gives exactly its history. -/
theorem trace_erase (L : Lib) (s : Server) (ops : List ServerOp) :
    eraseRes (s.trace L ops) = s.run L ops := by
  induction ops generalizing s with
  | nil => rfl
  | cons op ops ih =>
    unfold trace run
    have h1 := callTrace_erase L s op
    cases hc : s.callTrace L op with
    | error p =>
      rw [hc] at h1
      cases hc2 : s.call L op with
      | error q => rw [hc2] at h1; simpa [eraseRes, Except.map] using h1
      | ok x => rw [hc2] at h1; cases h1
    | ok x =>
      rw [hc] at h1
      obtain ⟨s1, items⟩ := x
      cases hc2 : s.call L op with
      | error q => rw [hc2] at h1; cases h1
      | ok y =>
        obtain ⟨s2, o⟩ := y
        rw [hc2] at h1
        simp only [eraseRes, Except.map, Except.ok.injEq, Prod.mk.injEq] at h1
        obtain ⟨rfl, h1⟩ := h1
        simp only
        rw [← ih s1]
        cases trace L s1 ops with
        | error p => rfl
        | ok z => simp [eraseRes, List.filterMap_append, h1]

/-! ## Steps -/

/-- `next` goes on to receive: nothing is being sent, and nothing is queued unless a response generated by
the server itself just ended. -/
def Clear (q : Bool) (s : Server) : Prop :=
  s.sendState.currentMessage = none ∧ (q = true ∨ s.sendState.queuedMessages = [])

/-- One item as a transition between server states; the flag says whether the previous item was
`quiet`. -/
inductive Step (L : Lib) : Server → Bool → SItem → Server → Prop
  | enqueue {s s1 : Server} {q : Bool} {h : RawHandle} {r : Response} : s.enqueueResponse r = (s1, h) →
      Step L s q (.enqueue h r) s1
  | authContinue {s s1 : Server} {q : Bool} {d : ContinuationRequest}
      {r : Except ContinuationRequest RawHandle} :
      s.authenticateContinue d = (s1, r) → Step L s q (.authContinue d r) s1
  | authFinish {s s1 : Server} {q : Bool} {d : Status} {r : Except Status RawHandle} :
      s.authenticateFinish d = .ok (s1, r) → Step L s q (.authFinish d r) s1
  | idleAccept {s s1 : Server} {q : Bool} {d : ContinuationRequest}
      {r : Except ContinuationRequest RawHandle} :
      s.idleAccept d = .ok (s1, r) → Step L s q (.idleAccept d r) s1
  | idleReject {s s1 : Server} {q : Bool} {d : Status} {r : Except Status RawHandle} :
      s.idleReject d = .ok (s1, r) → Step L s q (.idleReject d r) s1
  | input {s s1 : Server} {q : Bool} {b : Bytes} : s.enqueueInput b = .ok s1 → Step L s q (.input b) s1
  | output {s s1 : Server} {q : Bool} {b : Bytes} : progressSend L s = (s1, .error (.io (.output b))) →
      Step L s q (.output b) s1
  | sent {s s1 : Server} {q : Bool} {e : ServerEvent} : progressSend L s = (s1, .ok (some e)) →
      Step L s q (.sent e) s1
  | quiet {s s1 : Server} {q : Bool} : progressSend L s = (s1, .ok none) →
      s.sendState.currentMessage.isSome = true → Step L s q .quiet s1
  | outputRecv {s s2 : Server} {q : Bool} {b : Bytes} : Clear q s →
      progressReceive L s = .ok (s2, .error (.io (.output b))) → Step L s q (.output b) s2
  | starved {s s2 : Server} {q : Bool} : Clear q s →
      progressReceive L s = .ok (s2, .error (.io .needMoreInput)) → Step L s q .starved s2
  | failed {s s2 : Server} {q : Bool} {e : ServerError} : Clear q s →
      progressReceive L s = .ok (s2, .error (.error e)) → Step L s q (.failed e (replies s s2)) s2
  | received {s s2 : Server} {q : Bool} {e : ServerEvent} : Clear q s →
      progressReceive L s = .ok (s2, .ok (some e)) → Step L s q (.received (consumed s s2) e) s2
  | literal {s s2 : Server} {q : Bool} : Clear q s →
      progressReceive L s = .ok (s2, .ok none) → Step L s q (.literal s2.seen (replies s s2)) s2

/-- A list of items. -/
inductive Steps (L : Lib) : Server → Bool → List SItem → Server → Prop
  | nil {s : Server} {q : Bool} : Steps L s q [] s
  | cons {s s1 s2 : Server} {q : Bool} {i : SItem} {T : List SItem} : Step L s q i s1 →
      Steps L s1 (i == .quiet) T s2 → Steps L s q (i :: T) s2

theorem Steps.append {L : Lib} {s s1 s2 : Server} {q : Bool} {T U : List SItem} (h : Steps L s q T s1)
    (h' : ∀ q, Steps L s1 q U s2) : Steps L s q (T ++ U) s2 := by
  induction h with
  | nil => exact h' _
  | cons a _ ih => exact .cons a (ih h')

theorem progressSend_cases {L : Lib} {s s1 : Server}
    {r : Except (Interrupt ServerError) (Option ServerEvent)} (h : progressSend L s = (s1, r)) :
    (∃ m q, s.sendState.currentMessage = none ∧ s.sendState.queuedMessages = m :: q ∧
      r = .error (.io (.output (m.bytes L))) ∧ s1 = { s with sendState := ⟨q, some m⟩ }) ∨
    (s.sendState.currentMessage = none ∧ s.sendState.queuedMessages = [] ∧ r = .ok none ∧ s1 = s) ∨
    (∃ m, s.sendState.currentMessage = some m ∧ r = .ok m.event ∧
      s1 = { s with sendState := ⟨s.sendState.queuedMessages, none⟩ }) := by
  obtain ⟨o, g, ⟨qs, cur⟩, rx⟩ := s
  unfold progressSend ServerSendState.next at h
  cases cur with
  | some m =>
    right; right
    rcases m with g | ⟨_ | h, r⟩ <;>
      (simp only [Prod.mk.injEq] at h; obtain ⟨rfl, rfl⟩ := h; exact ⟨_, rfl, rfl, rfl⟩)
  | none =>
    cases qs with
    | nil =>
      simp only [Prod.mk.injEq] at h; obtain ⟨rfl, rfl⟩ := h
      exact .inr (.inl ⟨rfl, rfl, rfl, rfl⟩)
    | cons m qs =>
      simp only [Prod.mk.injEq] at h; obtain ⟨rfl, rfl⟩ := h
      left
      refine ⟨m, qs, rfl, rfl, ?_, rfl⟩
      cases m <;> rfl

theorem nextTrace_steps {L : Lib} {s s' : Server} {T : List SItem} (h : s.nextTrace L = .ok (s', T))
    (q : Bool) : Steps L s q T s' := by
  generalize hn : s.unread = n
  induction n using Nat.strongRecOn generalizing s T q with
  | _ n ih =>
    rw [nextTrace_eq] at h
    cases hs : progressSend L s with
    | mk s1 r =>
      have h1 := Server.progressSend_receiveState hs
      have h3 : s1.unread = s.unread := by simp [Server.unread, h1]
      rcases progressSend_cases hs with ⟨m, qs, hc, hq, rfl, he⟩ | ⟨hc, hq, rfl, he⟩ | ⟨m, hc, rfl, he⟩
      · simp only [hs, Except.ok.injEq, Prod.mk.injEq] at h
        obtain ⟨rfl, rfl⟩ := h
        exact .cons (.output hs) .nil
      all_goals
        -- nothing to report from the sending side
        have key : ∀ (q' : Bool) (pre : List SItem), pre = quietItems s → Clear q' s1 →
            (∀ T', Steps L s1 q' T' s' → Steps L s q (pre ++ T') s') →
            progressSend L s = (s1, .ok none) → Steps L s q T s' := by
          intro q' pre hpre hclear hglue hs
          subst hpre
          cases hr : progressReceive L s1 with
          | error p => simp [hs, hr] at h
          | ok x =>
            obtain ⟨s2, r⟩ := x
            rcases r with (⟨_ | b⟩ | e) | _ | ev
            · simp only [hs, hr, Except.ok.injEq, Prod.mk.injEq] at h
              obtain ⟨rfl, rfl⟩ := h
              exact hglue _ <| .cons (.starved hclear hr) .nil
            · simp only [hs, hr, Except.ok.injEq, Prod.mk.injEq] at h
              obtain ⟨rfl, rfl⟩ := h
              exact hglue _ <| .cons (.outputRecv hclear hr) .nil
            · simp only [hs, hr, Except.ok.injEq, Prod.mk.injEq] at h
              obtain ⟨rfl, rfl⟩ := h
              exact hglue _ <| .cons (.failed hclear hr) .nil
            · have h2 := Server.progressReceive_unread hr
              simp only [hs, hr] at h
              cases ht : nextTrace L s2 with
              | error p => simp [ht] at h
              | ok y =>
                obtain ⟨s3, items⟩ := y
                simp only [ht, Except.ok.injEq, Prod.mk.injEq] at h
                obtain ⟨rfl, rfl⟩ := h
                exact hglue _ <| .cons (.literal hclear hr) (ih _ (by omega) ht _ rfl)
            · simp only [hs, hr, Except.ok.injEq, Prod.mk.injEq] at h
              obtain ⟨rfl, rfl⟩ := h
              exact hglue _ <| .cons (.received hclear hr) .nil
      · subst he
        refine key q [] (by simp [quietItems, hc]) ⟨hc, .inr hq⟩ ?_ hs
        intro T' hT'
        exact hT'
      · cases hev : m.event with
        | some e =>
          rw [hev] at hs
          simp only [hs, Except.ok.injEq, Prod.mk.injEq] at h
          obtain ⟨rfl, rfl⟩ := h
          exact .cons (.sent hs) .nil
        | none =>
          rw [hev] at hs
          refine key true [.quiet] (by simp [quietItems, hc]) ⟨by rw [he], .inl rfl⟩ ?_ hs
          intro T' hT'
          exact .cons (.quiet hs (by rw [hc]; rfl)) hT'

theorem callTrace_steps {L : Lib} {s s' : Server} {op : ServerOp} {T : List SItem}
    (h : s.callTrace L op = .ok (s', T)) (q : Bool) : Steps L s q T s' := by
  cases op with
  | enqueueData d =>
    simp only [callTrace, Except.ok.injEq, Prod.mk.injEq] at h
    obtain ⟨rfl, rfl⟩ := h
    exact .cons (.enqueue rfl) .nil
  | enqueueStatus d =>
    simp only [callTrace, Except.ok.injEq, Prod.mk.injEq] at h
    obtain ⟨rfl, rfl⟩ := h
    exact .cons (.enqueue rfl) .nil
  | enqueueContinuationRequest d =>
    simp only [callTrace, Except.ok.injEq, Prod.mk.injEq] at h
    obtain ⟨rfl, rfl⟩ := h
    exact .cons (.enqueue rfl) .nil
  | authenticateContinue d =>
    simp only [callTrace, Except.ok.injEq, Prod.mk.injEq] at h
    obtain ⟨rfl, rfl⟩ := h
    exact .cons (.authContinue rfl) .nil
  | next => exact nextTrace_steps h q
  | enqueueInput b =>
    unfold callTrace at h
    simp only at h
    cases hi : s.enqueueInput b with
    | error p => simp [hi, Except.map] at h
    | ok s1 =>
      simp only [hi, Except.map, Except.ok.injEq, Prod.mk.injEq] at h
      obtain ⟨rfl, rfl⟩ := h
      exact .cons (.input hi) .nil
  | authenticateFinish d =>
    unfold callTrace at h
    simp only at h
    cases hi : s.authenticateFinish d with
    | error p => simp [hi, Except.map] at h
    | ok x =>
      simp only [hi, Except.map, Except.ok.injEq, Prod.mk.injEq] at h
      obtain ⟨rfl, rfl⟩ := h
      exact .cons (.authFinish hi) .nil
  | idleAccept d =>
    unfold callTrace at h
    simp only at h
    cases hi : s.idleAccept d with
    | error p => simp [hi, Except.map] at h
    | ok x =>
      simp only [hi, Except.map, Except.ok.injEq, Prod.mk.injEq] at h
      obtain ⟨rfl, rfl⟩ := h
      exact .cons (.idleAccept hi) .nil
  | idleReject d =>
    unfold callTrace at h
    simp only at h
    cases hi : s.idleReject d with
    | error p => simp [hi, Except.map] at h
    | ok x =>
      simp only [hi, Except.map, Except.ok.injEq, Prod.mk.injEq] at h
      obtain ⟨rfl, rfl⟩ := h
      exact .cons (.idleReject hi) .nil

theorem trace_steps {L : Lib} {ops : List ServerOp} {s s' : Server} {T : List SItem}
    (h : s.trace L ops = .ok (s', T)) (q : Bool) : Steps L s q T s' := by
  induction ops generalizing s T q with
  | nil =>
    simp only [trace, Except.ok.injEq, Prod.mk.injEq] at h
    obtain ⟨rfl, rfl⟩ := h
    exact .nil
  | cons op ops ih =>
    unfold trace at h
    cases hc : s.callTrace L op with
    | error p => simp [hc] at h
    | ok x =>
      obtain ⟨s1, items⟩ := x
      simp only [hc] at h
      cases ht : trace L s1 ops with
      | error p => simp [ht] at h
      | ok y =>
        obtain ⟨s2, U⟩ := y
        simp only [ht, Except.ok.injEq, Prod.mk.injEq] at h
        obtain ⟨rfl, rfl⟩ := h
        exact (callTrace_steps hc q).append fun q => ih ht q

end Server

end ImapFlow
