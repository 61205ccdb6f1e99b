import Verif.Proofs.Service
import Verif.Spec.ServiceSamples
import Verif.Props.C41

/-!
# C59: the clients of a proxy process do not interfere

`/repo/proxy/src/main.rs`, `/repo/proxy/src/proxy.rs:60-176`.
-/

namespace ImapFlow

variable {K : Type} {L : Lib} {workers : Nat} {configs : List ServiceConfig} {as : List (DaemonAct K)} {p p' : Daemon K}
  {T items : List DaemonItem} {i j : Nat}

/-- What happens in the conversation of a client is what happens if the proxy has only this client: it depends on
nothing but what the peers of this conversation do.  The connections are those of the handshakes that the configuration
of the service asks for.  So everything that is proved about one conversation (C38-C46, C55-C58) holds for each of
them. -/
theorem C59_conversation (h : (Daemon.start workers configs).run L as = some (p, T)) {g : HandleGenerator} {q : Proxy K}
    (ht : p.task? i j = some (.talking g q)) :
    ∃ config tc ts gc, configs[i]? = some config ∧ FromHandshakes config i j as tc ts ∧
      (Proxy.start tc ts gc).run L g (talkActs i j as) = some (q, taskItems i j T) := by
  have hf := Daemon.run_fine h
  cases hs : p.services[i]? with
  | none => rw [Daemon.task?, hs] at ht; cases ht
  | some s =>
    rw [Daemon.task?, hs] at ht
    have h1 := hf.tasks i s hs j
    rw [show s.tasks[j]? = _ from ht] at h1
    obtain ⟨tc, ts, gc, h2, h3⟩ := h1
    exact ⟨s.config, tc, ts, gc, by rw [← hf.config i, hs]; rfl, h3, h2⟩

/-- Without a conversation nothing happens. -/
theorem C59_nothing (h : (Daemon.start workers configs).run L as = some (p, T))
    (ht : ∀ g q, p.task? i j ≠ some (.talking g q)) : taskItems i j T = [] := by
  have hf := Daemon.run_fine h
  cases hs : p.services[i]? with
  | none => exact (hf.nowhere i hs j).1
  | some s =>
    have h1 := hf.tasks i s hs j
    cases hj : s.tasks[j]? with
    | none => rw [hj] at h1; exact h1.1
    | some t =>
      rw [hj] at h1
      cases t with
      | talking g q => exact (ht g q (by rw [Daemon.task?, hs]; exact hj)).elim
      | _ => exact h1.1

/-- For example, the commands passed on to the server of a conversation are those received from its client. -/
theorem C59_commands (hL : L.Lawful) (hP : L.Proxyable) (h : (Daemon.start workers configs).run L as = some (p, T)) :
    forwardedCommands (taskItems i j T) = receivedCommands (taskItems i j T) := by
  by_cases ht : ∃ g q, p.task? i j = some (.talking g q)
  · obtain ⟨g, q, ht⟩ := ht
    obtain ⟨-, tc, ts, gc, -, -, hr⟩ := C59_conversation h ht
    exact C41_commands hL hP hr
  · rw [C59_nothing h fun g q hx => ht ⟨g, q, hx⟩]
    rfl

/-- A step of a task, also if it fails or panics, and a step of the accept loop of a service change no other task and
no other accept loop, and what happens is attributed to the task that made the step. -/
theorem C59_others {a : DaemonAct K} (h : p.step L a = some (p', items)) :
    (∀ i j t, a.target ≠ (i, some j) → p.task? i j = some t → p'.task? i j = some t) ∧
    (∀ i, a.target ≠ (i, none) → (p'.service? i).map Service.accepting = (p.service? i).map Service.accepting) ∧
    (∀ i, (p'.service? i).map Service.config = (p.service? i).map Service.config) ∧
    ∀ x ∈ items, a.target = (x.service, some x.task) := by
  cases a with
  | service i act =>
    obtain ⟨s, s', h1, h2, rfl, -, rfl⟩ := Daemon.step_service h
    obtain ⟨c1, c2, -⟩ := Service.step_cases h2
    have hlt : i < p.services.length := (List.getElem?_eq_some_iff.1 h1).1
    refine ⟨?_, ?_, ?_, fun x hx => by cases hx⟩
    · intro i' j t _ ht
      rw [Daemon.task?] at ht ⊢
      show (((p.services.set i s')[i']?).bind _) = _
      by_cases hi : i = i'
      · subst hi
        rw [h1] at ht
        rw [List.getElem?_set_self hlt]
        replace ht : s.tasks[j]? = some t := ht
        show s'.tasks[j]? = some t
        rcases c2 with e | ⟨tls, e, -⟩
        · rw [e, ht]
        · rw [e, List.getElem?_append_left (List.getElem?_eq_some_iff.1 ht).1, ht]
      · rw [List.getElem?_set_ne hi]; exact ht
    · intro i' hi
      have hi : i ≠ i' := fun e => hi (by rw [e]; rfl)
      show ((p.services.set i s')[i']?).map _ = _
      rw [List.getElem?_set_ne hi]; rfl
    · intro i'
      show ((p.services.set i s')[i']?).map _ = (p.services[i']?).map _
      by_cases hi : i = i'
      · subst hi; rw [List.getElem?_set_self hlt, h1]; simp [c1]
      · rw [List.getElem?_set_ne hi]
  | task i j act =>
    obtain ⟨s, t, t', its, h1, h2, h3, rfl, -, rfl⟩ := Daemon.step_task h
    have hlt : i < p.services.length := (List.getElem?_eq_some_iff.1 h1).1
    refine ⟨?_, ?_, ?_, ?_⟩
    · intro i' j' x hn hx
      rw [Daemon.task?] at hx ⊢
      show (((p.services.set i _)[i']?).bind _) = _
      by_cases hi : i = i'
      · subst hi
        rw [h1] at hx
        rw [List.getElem?_set_self hlt]
        replace hx : s.tasks[j']? = some x := hx
        show (s.tasks.set j t')[j']? = some x
        rw [List.getElem?_set_ne (fun e => hn (by rw [e]; rfl)), hx]
      · rw [List.getElem?_set_ne hi]; exact hx
    · intro i' _
      show ((p.services.set i _)[i']?).map _ = (p.services[i']?).map _
      by_cases hi : i = i'
      · subst hi; rw [List.getElem?_set_self hlt, h1]; rfl
      · rw [List.getElem?_set_ne hi]
    · intro i'
      show ((p.services.set i _)[i']?).map _ = (p.services[i']?).map _
      by_cases hi : i = i'
      · subst hi; rw [List.getElem?_set_self hlt, h1]; rfl
      · rw [List.getElem?_set_ne hi]
    · intro x hx
      obtain ⟨y, -, rfl⟩ := List.mem_map.1 hx
      rfl

/-- What is possible for a client, and what happens then, depends on its task only, as long as a worker thread is
left. -/
theorem C59_possible {s : Service K} {t : Task K} (hw : p.occupied < p.workers) (hs : p.service? i = some s)
    (ht : p.task? i j = some t) (act : TaskAct K) :
    ((p.step L (.task i j act)).isSome = true ↔ (t.step L s.config act).isSome = true) ∧
    ∀ p' items t' its, p.step L (.task i j act) = some (p', items) → t.step L s.config act = some (t', its) →
      p'.task? i j = some t' ∧ taskItems i j items = its := by
  have hs : p.services[i]? = some s := hs
  have ht : s.tasks[j]? = some t := by rw [Daemon.task?, hs] at ht; exact ht
  constructor
  · rw [Daemon.step, if_neg (by omega)]
    simp only [hs, ht]
    split
    · rename_i he; simp [he]
    · rename_i he; simp [he]
  · intro p' items t' its hp htt
    obtain ⟨s', x, x', its', e1, e2, e3, rfl, -, rfl⟩ := Daemon.step_task hp
    rw [hs] at e1
    cases e1
    rw [ht] at e2
    cases e2
    rw [htt] at e3
    cases e3
    refine ⟨?_, taskItems_self i j its⟩
    show (((p.services.set i _)[i]?).bind _) = _
    rw [List.getElem?_set_self (List.getElem?_eq_some_iff.1 hs).1]
    show (s.tasks.set j t')[j]? = some t'
    rw [List.getElem?_set_self (List.getElem?_eq_some_iff.1 ht).1]

/-- Two clients of a service with TLS both get their answers, although the conversation of a client of another service
panics, and so does the task of a client of a third one, and the server of a fourth client cannot be reached. -/
example : ∃ p T, (ServiceSample.start 1).run Toy.lib ServiceSample.acts = some (p, T) ∧
    ServiceSample.stages p = [[.talking .conversation, .talking .conversation], [.talking .dead, .failed], [.panicked]] :=
  ServiceSample.run_acts

/-- Their commands and answers. -/
example : ((ServiceSample.start 1).run Toy.lib ServiceSample.acts).map (fun x => [0, 1].map fun j =>
      (receivedCommands (taskItems 0 j x.2), forwardedResponses (taskItems 0 j x.2))) =
    some (List.replicate 2 ([⟨ClientSample.str "A", .other (ClientSample.str "z")⟩],
      [.status (.tagged (ClientSample.str "A") ⟨.ok, none, ClientSample.str "done"⟩)])) := by decide +kernel

end ImapFlow
