import Verif.Proofs.Service
import Verif.Spec.ServiceSamples

/-!
# C60: a client that does not finish its handshake does not keep others from being served (false; what holds instead)

`accept_client` awaits the TLS handshake (`/repo/proxy/src/proxy.rs:110`), and `handle_service` awaits `accept_client`
before it accepts the next client (`/repo/proxy/src/main.rs:64`).  There is no timeout.
-/

namespace ImapFlow

variable {K : Type} {L : Lib} {workers : Nat} {configs : List ServiceConfig} {as bs : List (DaemonAct K)} {p q : Daemon K}
  {T U : List DaemonItem} {i : Nat}

/-- The claim is false: after one client has connected, no other client of the service can be accepted although all
worker threads are free. -/
theorem C60_false : ¬ ∀ (L : Lib) (_ : L.Lawful) (workers : Nat) (configs : List ServiceConfig) (as : List (DaemonAct Nat))
    (p : Daemon Nat) (T : List DaemonItem) (i : Nat), (Daemon.start workers configs).run L as = some (p, T) →
    p.occupied < p.workers → i < configs.length → (p.step L (.service i (.accepted true))).isSome = true := by
  intro H
  have h : ((ServiceSample.start 1).run Toy.lib [.service 0 (.accepted true)]).map (fun x => (decide (x.1.occupied < x.1.workers),
      (x.1.step Toy.lib (.service 0 (.accepted true))).isSome)) = some (true, false) := by decide +kernel
  cases hx : (ServiceSample.start 1).run Toy.lib [.service 0 (.accepted true)] with
  | none => rw [hx] at h; cases h
  | some x =>
    rw [hx] at h
    simp only [Option.map_some, Option.some.injEq, Prod.mk.injEq, decide_eq_true_eq] at h
    have := H Toy.lib Toy.lawful 1 _ _ x.1 x.2 0 hx h.1 (by decide)
    rw [h.2] at this
    cases this

/-- Until the handshake of this client succeeds or fails the service gets no further client, whatever happens. -/
theorem C60_blocked {s : Service K} (hs : p.service? i = some s) (ha : s.accepting = .handshaking)
    (h : p.run L bs = some (q, U)) (h1 : ∀ tls, .service i (.secured tls) ∉ bs) (h2 : .service i .handshakeFailed ∉ bs) :
    ∃ s', q.service? i = some s' ∧ s'.accepting = .handshaking ∧ s'.tasks.length = s.tasks.length ∧
      ∀ identity, q.step L (.service i (.accepted identity)) = none := by
  induction bs generalizing p s U with
  | nil =>
    cases h
    refine ⟨s, hs, ha, rfl, fun identity => ?_⟩
    rw [Daemon.step]
    split
    · rfl
    · rw [Daemon.service?] at hs
      simp only [hs, Service.step, ha]
  | cons a bs ih =>
    obtain ⟨p', items, T', hp, hr, rfl⟩ := Daemon.run_cons h
    obtain ⟨s1, e1, e2, e3⟩ : ∃ s1, p'.service? i = some s1 ∧ s1.accepting = .handshaking ∧
        s1.tasks.length = s.tasks.length := by
      cases a with
      | service i' act =>
        obtain ⟨x, x', h3, h4, -, -, rfl⟩ := Daemon.step_service hp
        by_cases hi : i' = i
        · subst hi
          rw [show p.services[i']? = some s from hs] at h3
          cases h3
          obtain ⟨-, c2, c3⟩ := Service.step_cases h4
          refine ⟨x', List.getElem?_set_self (List.getElem?_eq_some_iff.1 hs).1, c3.2 (.inr ⟨ha, ?_, ?_⟩), ?_⟩
          · rintro t rfl; exact h1 t (List.mem_cons_self ..)
          · rintro rfl; exact h2 (List.mem_cons_self ..)
          · rcases c2 with e | ⟨tls, -, ⟨-, -, rfl⟩ | ⟨-, -, rfl⟩ | ⟨t, -, rfl, -⟩⟩
            · rw [e]
            · simp [Service.step, ha] at h4
            · simp [Service.step, ha] at h4
            · exact (h1 t (List.mem_cons_self ..)).elim
        · exact ⟨s, by rw [Daemon.service?, List.getElem?_set_ne hi]; exact hs, ha, rfl⟩
      | task i' j act =>
        obtain ⟨x, t, t', its, h3, -, -, -, -, rfl⟩ := Daemon.step_task hp
        by_cases hi : i' = i
        · subst hi
          rw [show p.services[i']? = some s from hs] at h3
          cases h3
          exact ⟨_, List.getElem?_set_self (List.getElem?_eq_some_iff.1 hs).1, ha, List.length_set⟩
        · exact ⟨s, by rw [Daemon.service?, List.getElem?_set_ne hi]; exact hs, ha, rfl⟩
    obtain ⟨s', k1, k2, k3, k4⟩ := ih e1 e2 hr (fun tls hm => h1 tls (List.mem_cons_of_mem _ hm))
      (fun hm => h2 (List.mem_cons_of_mem _ hm))
    exact ⟨s', k1, k2, k3.trans e3, k4⟩

/-- What holds: without TLS the service can always accept a client, and with TLS exactly if no handshake is pending,
provided that a worker thread is left.  Handshakes of other services and connections to servers do not matter. -/
theorem C60_partial (h : (Daemon.start workers configs).run L as = some (p, T)) {config : ServiceConfig}
    (hc : configs[i]? = some config) (hw : p.occupied < workers) :
    (p.step L (.service i (.accepted true))).isSome = true ↔ config.bindTls = false ∨ handshakePending i as = false := by
  have hf := Daemon.run_fine h
  have hcfg := hf.config i
  rw [hc] at hcfg
  cases hs : p.services[i]? with
  | none => rw [hs] at hcfg; cases hcfg
  | some s =>
    rw [hs] at hcfg
    cases hcfg
    have ha := hf.accepting i s hs
    rw [Daemon.step, if_neg (by rw [hf.workers]; omega)]
    simp only [hs]
    cases hk : s.accepting with
    | listening =>
      rw [hk] at ha
      have hn : s.config.bindTls = false ∨ handshakePending i as = false := by
        cases hb : s.config.bindTls
        · exact .inl rfl
        · cases hp : handshakePending i as
          · exact .inr rfl
          · exact absurd (ha.2 ⟨hb, hp⟩) (by simp)
      simp only [hn, iff_true]
      unfold Service.step
      simp only [hk]
      cases s.config.bindTls <;> rfl
    | handshaking =>
      rw [hk] at ha
      obtain ⟨hb, hp⟩ := ha.1 rfl
      simp [Service.step, hk, hb, hp]

/-- One client of the first service does not finish its handshake; a client of the second one is accepted. -/
example : ((ServiceSample.start 1).run Toy.lib [.service 0 (.accepted true), .service 1 (.accepted true)]).map
    (fun x => (ServiceSample.stages x.1, decide (x.1.occupied < x.1.workers))) = some ([[], [.connecting], []], true) := by
  decide +kernel

end ImapFlow
