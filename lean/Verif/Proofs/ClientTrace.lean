import Verif.Spec.ClientTrace
import Verif.Proofs.ClientChunk

/-!
# Traces and histories
-/

namespace ImapFlow

namespace Client

/-- Forget what a history does not show. -/
def eraseRes : Except Panic (Client × List CItem) → Except Panic (Client × List ClientObs)
  | .error p => .error p
  | .ok (c, T) => .ok (c, T.filterMap CItem.erase)

theorem nextTrace_eq (L : Lib) (c : Client) :
    c.nextTrace L =
      match progressSend L c with
      | .error p => .error p
      | .ok (c1, .error (.io (.output b))) => .ok (c1, [.output b])
      | .ok (c1, .error (.io .needMoreInput)) => .ok (c1, [.starved])
      | .ok (c1, .error (.error e)) => .ok (c1, [.failed e])
      | .ok (c1, .ok (some event)) => .ok (c1, [.sent event])
      | .ok (c1, .ok none) =>
        match progressReceive L c1 with
        | .error p => .error p
        | .ok (c2, .error (.io (.output b))) => .ok (c2, [.output b])
        | .ok (c2, .error (.io .needMoreInput)) => .ok (c2, [.starved])
        | .ok (c2, .error (.error e)) => .ok (c2, [.failed e])
        | .ok (c2, .ok (some event)) => .ok (c2, [.received (consumed c1 c2) event])
        | .ok (c2, .ok none) =>
          match Client.nextTrace L c2 with
          | .error p => .error p
          | .ok (c3, items) => .ok (c3, .released (consumed c1 c2) :: items) := by
  rw [Client.nextTrace]
  split <;> simp_all
  split <;> simp_all
  all_goals cases nextTrace L _ <;> rfl

theorem nextTrace_erase (L : Lib) (c : Client) :
    eraseRes (c.nextTrace L) = (c.next L).map fun (c, r) => (c, [.next r]) := by
  generalize hn : c.unread = n
  induction n using Nat.strongRecOn generalizing c with
  | _ n ih =>
    rw [Client.next_eq, nextTrace_eq]
    cases hs : progressSend L c with
    | error p => simp [eraseRes, Except.map]
    | ok x =>
      obtain ⟨c1, r⟩ := x
      have h1 := Client.progressSend_unread hs
      rcases r with (⟨_ | b⟩ | e) | _ | ev
      · simp [eraseRes, Except.map, CItem.erase]
      · simp [eraseRes, Except.map, CItem.erase]
      · simp [eraseRes, Except.map, CItem.erase]
      · cases hr : progressReceive L c1 with
        | error p => simp [eraseRes, Except.map, hr]
        | ok x =>
          obtain ⟨c2, r⟩ := x
          rcases r with (⟨_ | b⟩ | e) | _ | ev
          · simp [eraseRes, Except.map, CItem.erase, hr]
          · simp [eraseRes, Except.map, CItem.erase, hr]
          · simp [eraseRes, Except.map, CItem.erase, hr]
          · have h2 := Client.progressReceive_unread hr
            have h3 : c1.unread = c.unread := by simp [Client.unread, h1]
            have := ih _ (by omega) c2 rfl
            simp only [hr]
            rw [← this]
            cases nextTrace L c2 with
            | error p => rfl
            | ok x =>
              simp only [eraseRes]
              rw [List.filterMap_cons]; rfl
          · simp [eraseRes, Except.map, CItem.erase, hr]
      · simp [eraseRes, Except.map, CItem.erase]

theorem callTrace_erase (L : Lib) (c : Client) (op : ClientOp) :
    eraseRes (c.callTrace L op) = (c.call L op).map fun (c, o) => (c, [o]) := by
  cases op with
  | enqueueCommand cmd => rfl
  | enqueueInput b =>
    unfold callTrace call
    simp only
    cases c.enqueueInput b <;> rfl
  | next =>
    unfold callTrace call
    simp only
    rw [nextTrace_erase]
    cases c.next L <;> rfl
  | setAuthenticateData d =>
    unfold callTrace call
    simp only
    cases c.setAuthenticateData L d <;> rfl
  | setIdleDone =>
    unfold callTrace call
    simp only
    cases c.setIdleDone L <;> rfl

/-- Erasing the trace of a list of calls gives exactly its history. -/
theorem trace_erase (L : Lib) (c : Client) (ops : List ClientOp) :
    eraseRes (c.trace L ops) = c.run L ops := by
  induction ops generalizing c with
  | nil => rfl
  | cons op ops ih =>
    unfold trace run
    have h1 := callTrace_erase L c op
    cases hc : c.callTrace L op with
    | error p =>
      rw [hc] at h1
      cases hc2 : c.call L op with
      | error q => rw [hc2] at h1; simpa [eraseRes, Except.map] using h1
      | ok x => rw [hc2] at h1; cases h1
    | ok x =>
      rw [hc] at h1
      obtain ⟨c1, items⟩ := x
      cases hc2 : c.call L op with
      | error q => rw [hc2] at h1; cases h1
      | ok y =>
        obtain ⟨c2, o⟩ := y
        rw [hc2] at h1
        simp only [eraseRes, Except.map, Except.ok.injEq, Prod.mk.injEq] at h1
        obtain ⟨rfl, h1⟩ := h1
        simp only
        rw [← ih c1]
        cases trace L c1 ops with
        | error p => rfl
        | ok z => simp [eraseRes, List.filterMap_append, h1]

/-! ## Steps -/

/-- One item as a transition between client states. -/
inductive Step (L : Lib) : Client → CItem → Client → Prop
  | enqueue {c c1 : Client} {h : RawHandle} {cmd : Command} : c.enqueueCommand cmd = (c1, h) →
      Step L c (.enqueue h cmd) c1
  | input {c c1 : Client} {b : Bytes} : c.enqueueInput b = .ok c1 → Step L c (.input b) c1
  | setAuth {c c1 : Client} {d : AuthenticateData} {r : Except AuthenticateData RawHandle} :
      c.setAuthenticateData L d = .ok (c1, r) → Step L c (.setAuth d r) c1
  | setDone {c c1 : Client} {r : Option RawHandle} : c.setIdleDone L = .ok (c1, r) →
      Step L c (.setDone r) c1
  | output {c c1 : Client} {b : Bytes} : progressSend L c = .ok (c1, .error (.io (.output b))) →
      Step L c (.output b) c1
  | starvedSend {c c1 : Client} : progressSend L c = .ok (c1, .error (.io .needMoreInput)) →
      Step L c .starved c1
  | failedSend {c c1 : Client} {e : ClientError} : progressSend L c = .ok (c1, .error (.error e)) →
      Step L c (.failed e) c1
  | sent {c c1 : Client} {e : ClientEvent} : progressSend L c = .ok (c1, .ok (some e)) →
      Step L c (.sent e) c1
  | outputRecv {c c1 c2 : Client} {b : Bytes} : progressSend L c = .ok (c1, .ok none) →
      progressReceive L c1 = .ok (c2, .error (.io (.output b))) → Step L c (.output b) c2
  | starved {c c1 c2 : Client} : progressSend L c = .ok (c1, .ok none) →
      progressReceive L c1 = .ok (c2, .error (.io .needMoreInput)) → Step L c .starved c2
  | failed {c c1 c2 : Client} {e : ClientError} : progressSend L c = .ok (c1, .ok none) →
      progressReceive L c1 = .ok (c2, .error (.error e)) → Step L c (.failed e) c2
  | received {c c1 c2 : Client} {e : ClientEvent} : progressSend L c = .ok (c1, .ok none) →
      progressReceive L c1 = .ok (c2, .ok (some e)) → Step L c (.received (consumed c1 c2) e) c2
  | released {c c1 c2 : Client} : progressSend L c = .ok (c1, .ok none) →
      progressReceive L c1 = .ok (c2, .ok none) → Step L c (.released (consumed c1 c2)) c2

/-- A list of items. -/
inductive Steps (L : Lib) : Client → List CItem → Client → Prop
  | nil {c : Client} : Steps L c [] c
  | cons {c c1 c2 : Client} {i : CItem} {T : List CItem} : Step L c i c1 → Steps L c1 T c2 →
      Steps L c (i :: T) c2

theorem Steps.append {L : Lib} {c c1 c2 : Client} {T U : List CItem} (h : Steps L c T c1)
    (h' : Steps L c1 U c2) : Steps L c (T ++ U) c2 := by
  induction h with
  | nil => exact h'
  | cons a _ ih => exact .cons a (ih h')

theorem Steps.split {L : Lib} {c c2 : Client} {T U : List CItem} (h : Steps L c (T ++ U) c2) :
    ∃ c1, Steps L c T c1 ∧ Steps L c1 U c2 := by
  induction T generalizing c with
  | nil => exact ⟨c, .nil, h⟩
  | cons i T ih =>
    cases h with
    | cons a b =>
      obtain ⟨c1, h1, h2⟩ := ih b
      exact ⟨c1, .cons a h1, h2⟩

theorem nextTrace_steps {L : Lib} {c c' : Client} {T : List CItem} (h : c.nextTrace L = .ok (c', T)) :
    Steps L c T c' := by
  generalize hn : c.unread = n
  induction n using Nat.strongRecOn generalizing c T with
  | _ n ih =>
    rw [nextTrace_eq] at h
    cases hs : progressSend L c with
    | error p => simp [hs] at h
    | ok x =>
      obtain ⟨c1, r⟩ := x
      have h1 := Client.progressSend_unread hs
      rcases r with (⟨_ | b⟩ | e) | _ | ev
      · simp only [hs, Except.ok.injEq, Prod.mk.injEq] at h
        obtain ⟨rfl, rfl⟩ := h
        exact .cons (.starvedSend hs) .nil
      · simp only [hs, Except.ok.injEq, Prod.mk.injEq] at h
        obtain ⟨rfl, rfl⟩ := h
        exact .cons (.output hs) .nil
      · simp only [hs, Except.ok.injEq, Prod.mk.injEq] at h
        obtain ⟨rfl, rfl⟩ := h
        exact .cons (.failedSend hs) .nil
      · cases hr : progressReceive L c1 with
        | error p => simp [hs, hr] at h
        | ok x =>
          obtain ⟨c2, r⟩ := x
          rcases r with (⟨_ | b⟩ | e) | _ | ev
          · simp only [hs, hr, Except.ok.injEq, Prod.mk.injEq] at h
            obtain ⟨rfl, rfl⟩ := h
            exact .cons (.starved hs hr) .nil
          · simp only [hs, hr, Except.ok.injEq, Prod.mk.injEq] at h
            obtain ⟨rfl, rfl⟩ := h
            exact .cons (.outputRecv hs hr) .nil
          · simp only [hs, hr, Except.ok.injEq, Prod.mk.injEq] at h
            obtain ⟨rfl, rfl⟩ := h
            exact .cons (.failed hs hr) .nil
          · have h2 := Client.progressReceive_unread hr
            have h3 : c1.unread = c.unread := by simp [Client.unread, h1]
            simp only [hs, hr] at h
            cases ht : nextTrace L c2 with
            | error p => simp [ht] at h
            | ok y =>
              obtain ⟨c3, items⟩ := y
              simp only [ht, Except.ok.injEq, Prod.mk.injEq] at h
              obtain ⟨rfl, rfl⟩ := h
              exact .cons (.released hs hr) (ih _ (by omega) ht rfl)
          · simp only [hs, hr, Except.ok.injEq, Prod.mk.injEq] at h
            obtain ⟨rfl, rfl⟩ := h
            exact .cons (.received hs hr) .nil
      · simp only [hs, Except.ok.injEq, Prod.mk.injEq] at h
        obtain ⟨rfl, rfl⟩ := h
        exact .cons (.sent hs) .nil

theorem callTrace_steps {L : Lib} {c c' : Client} {op : ClientOp} {T : List CItem}
    (h : c.callTrace L op = .ok (c', T)) : Steps L c T c' := by
  cases op with
  | enqueueCommand cmd =>
    simp only [callTrace, Except.ok.injEq, Prod.mk.injEq] at h
    obtain ⟨rfl, rfl⟩ := h
    exact .cons (.enqueue rfl) .nil
  | enqueueInput b =>
    unfold callTrace at h
    simp only at h
    cases hi : c.enqueueInput b with
    | error p => simp [hi, Except.map] at h
    | ok c1 =>
      simp only [hi, Except.map, Except.ok.injEq, Prod.mk.injEq] at h
      obtain ⟨rfl, rfl⟩ := h
      exact .cons (.input hi) .nil
  | next => exact nextTrace_steps h
  | setAuthenticateData d =>
    unfold callTrace at h
    simp only at h
    cases hi : c.setAuthenticateData L d with
    | error p => simp [hi, Except.map] at h
    | ok x =>
      simp only [hi, Except.map, Except.ok.injEq, Prod.mk.injEq] at h
      obtain ⟨rfl, rfl⟩ := h
      exact .cons (.setAuth hi) .nil
  | setIdleDone =>
    unfold callTrace at h
    simp only at h
    cases hi : c.setIdleDone L with
    | error p => simp [hi, Except.map] at h
    | ok x =>
      simp only [hi, Except.map, Except.ok.injEq, Prod.mk.injEq] at h
      obtain ⟨rfl, rfl⟩ := h
      exact .cons (.setDone hi) .nil

theorem trace_steps {L : Lib} {ops : List ClientOp} {c c' : Client} {T : List CItem}
    (h : c.trace L ops = .ok (c', T)) : Steps L c T c' := by
  induction ops generalizing c T with
  | nil =>
    simp only [trace, Except.ok.injEq, Prod.mk.injEq] at h
    obtain ⟨rfl, rfl⟩ := h
    exact .nil
  | cons op ops ih =>
    unfold trace at h
    cases hc : c.callTrace L op with
    | error p => simp [hc] at h
    | ok x =>
      obtain ⟨c1, items⟩ := x
      simp only [hc] at h
      cases ht : trace L c1 ops with
      | error p => simp [ht] at h
      | ok y =>
        obtain ⟨c2, U⟩ := y
        simp only [ht, Except.ok.injEq, Prod.mk.injEq] at h
        obtain ⟨rfl, rfl⟩ := h
        exact (callTrace_steps hc).append (ih ht)

end Client

end ImapFlow
