import Verif.Proofs.Clients
import Verif.Spec.ServiceSamples

/-!
# C85: every client has one task, its own

`/repo/proxy/src/main.rs:58-95`, `/repo/proxy/src/proxy.rs:60-177`.  `readyClients b i as`: the connections of the clients that
service `i` accepted, with TLS of those whose handshake is done, in that order.  `ownActs i j as`: what the environment did with
task `j` of service `i`.
-/

namespace ImapFlow

variable {K : Type} {L : Lib} {workers : Nat} {configs : List ServiceConfig} {as : List (DaemonAct K)} {p p' : Daemon K}
  {T : List DaemonItem} {i j : Nat} {config : ServiceConfig}

/-- The process serves exactly the clients that are ready: task `j` of a service exists if there were more than `j` of them. -/
theorem C85_count (h : (Daemon.start workers configs).run L as = some (p, T)) (hc : configs[i]? = some config) :
    (p.task? i j).isSome ↔ j < (readyClients config.bindTls i as).length := by
  have hf := Daemon.run_serves h
  have hlt : i < p.services.length := by rw [hf.count]; exact (List.getElem?_eq_some_iff.1 hc).1
  have hs : p.services[i]? = some p.services[i] := List.getElem?_eq_getElem hlt
  have h1 := hf.config i _ hs
  rw [hc] at h1
  rw [Option.some.inj h1, ← hf.ready i _ hs, Daemon.task?, hs]
  show (p.services[i].tasks[j]?).isSome ↔ _
  simp

/-- The life of the task of a client: its conversation is on the connection of exactly this client, and apart from that only what
the environment does with this task matters, from its start to its end.  The task of a client that fails or panics stays the
task of this client. -/
theorem C85_life (h : (Daemon.start workers configs).run L as = some (p, T)) (hc : configs[i]? = some config) {tc : Option (Tls K)}
    (hj : (readyClients config.bindTls i as)[j]? = some tc) :
    ∃ t, p.task? i j = some t ∧ Life L config tc (ownActs i j as) t (taskItems i j T) := by
  have hf := Daemon.run_serves h
  have hlt : i < p.services.length := by rw [hf.count]; exact (List.getElem?_eq_some_iff.1 hc).1
  have hs : p.services[i]? = some p.services[i] := List.getElem?_eq_getElem hlt
  have h1 := hf.config i _ hs
  rw [hc] at h1
  have h1 := Option.some.inj h1
  rw [h1] at hj ⊢
  have hl : j < p.services[i].tasks.length := by rw [hf.ready i _ hs]; exact (List.getElem?_eq_some_iff.1 hj).1
  have ht : p.services[i].tasks[j]? = some p.services[i].tasks[j] := List.getElem?_eq_getElem hl
  obtain ⟨tc', e1, e2⟩ := hf.lives i _ hs j _ ht
  rw [hj] at e1
  cases e1
  exact ⟨_, by rw [Daemon.task?, hs]; exact ht, e2⟩

/-- There is nothing else: no service that is not configured, and nothing is done with, and nothing happens in, a task without a
client. -/
theorem C85_nothing (h : (Daemon.start workers configs).run L as = some (p, T)) :
    (∀ i, configs.length ≤ i → p.service? i = none) ∧
    ∀ i j, p.task? i j = none → i < configs.length → ownActs i j as = [] ∧ taskItems i j T = [] := by
  have hf := Daemon.run_serves h
  refine ⟨fun i hi => ?_, fun i j ht hi => ?_⟩
  · rw [Daemon.service?]
    exact List.getElem?_eq_none (by rw [hf.count]; exact hi)
  · have hlt : i < p.services.length := by rw [hf.count]; exact hi
    have hs : p.services[i]? = some p.services[i] := List.getElem?_eq_getElem hlt
    rw [Daemon.task?, hs] at ht
    exact hf.future i _ hs j (List.getElem?_eq_none_iff.1 ht)

/-- An accept loop never ends: as long as there is a worker thread, the next client of each service gets its task, whatever has
failed or panicked before.  (A client whose handshake is pending must be waited for, see C60.) -/
theorem C85_next (h : (Daemon.start workers configs).run L as = some (p, T)) (hw : p.occupied < p.workers)
    (hc : configs[i]? = some config) (tls : Tls K) :
    ∃ bs p', p.run L bs = some (p', []) ∧ (∀ b ∈ bs, b.target = (i, none)) ∧
      readyClients config.bindTls i (as ++ bs) =
        readyClients config.bindTls i as ++ [if config.bindTls then some tls else none] ∧
      p'.task? i (readyClients config.bindTls i as).length = some (.connecting (if config.bindTls then some tls else none)) := by
  have hf := Daemon.run_serves h
  have hlt : i < p.services.length := by rw [hf.count]; exact (List.getElem?_eq_some_iff.1 hc).1
  have hs : p.services[i]? = some p.services[i] := List.getElem?_eq_getElem hlt
  have h1 := hf.config i _ hs
  rw [hc] at h1
  have h1 := Option.some.inj h1
  suffices hb : ∃ bs p', p.run L bs = some (p', []) ∧ (∀ b ∈ bs, b.target = (i, none)) ∧
      bs.filterMap (DaemonAct.client? config.bindTls i) = [if config.bindTls then some tls else none] by
    obtain ⟨bs, p', e1, e2, e3⟩ := hb
    have hr : readyClients config.bindTls i (as ++ bs) =
        readyClients config.bindTls i as ++ [if config.bindTls then some tls else none] := by
      rw [readyClients, List.filterMap_append, e3]; rfl
    refine ⟨bs, p', e1, e2, hr, ?_⟩
    have hrun := Daemon.run_append h e1
    obtain ⟨t, f1, f2⟩ := C85_life hrun hc (j := (readyClients config.bindTls i as).length)
      (tc := if config.bindTls then some tls else none) (by rw [hr]; simp)
    have hown : ownActs i (readyClients config.bindTls i as).length (as ++ bs) = [] := by
      have e4 : bs.filterMap (DaemonAct.own? i (readyClients config.bindTls i as).length) = [] := by
        rw [List.filterMap_eq_nil_iff]
        intro b hb
        have := e2 b hb
        cases b with
        | service => rfl
        | task => cases this
      rw [ownActs, List.filterMap_append, e4, List.append_nil]
      exact (hf.future i _ hs _ (by rw [hf.ready i _ hs, h1]; exact Nat.le_refl _)).1
    rw [hown] at f2
    rw [f1]
    generalize taskItems i _ _ = U at f2
    cases f2
    rfl
  have ha := (Daemon.run_fine h).accepting i _ hs
  rw [← h1] at ha
  generalize p.services[i] = s at hs ha h1
  have one : ∀ {q : Daemon K} {s s' : Service K} {act : ServiceAct K}, q.occupied < q.workers → q.services[i]? = some s →
      s.step act = some s' → ∃ r, q.run L [.service i act] = some (r, []) ∧ r = ⟨q.workers, q.services.set i s'⟩ := by
    intro q s s' act e1 e2 e3
    refine ⟨_, ?_, rfl⟩
    rw [Daemon.run, Daemon.step_of_service e1 e2 e3]
    rfl
  cases hk : s.accepting with
  | handshaking =>
    rw [hk] at ha
    have hb := (ha.1 rfl).1
    obtain ⟨r, e, -⟩ := one (act := .secured tls) hw hs (by simp only [Service.step, hk]; rfl)
    refine ⟨_, _, e, ?_, ?_⟩
    · intro b hm; rw [List.mem_singleton.1 hm]; rfl
    · simp [DaemonAct.client?, hb]
  | listening =>
    cases hb : config.bindTls with
    | false =>
      obtain ⟨r, e, -⟩ := one (act := .accepted true) hw hs (by simp [Service.step, hk, ← h1, hb]; rfl)
      refine ⟨_, _, e, ?_, ?_⟩
      · intro b hm; rw [List.mem_singleton.1 hm]; rfl
      · simp [DaemonAct.client?]
    | true =>
      obtain ⟨r, e, hr⟩ := one (act := .accepted true) (s' := ⟨s.config, .handshaking, s.tasks⟩) hw hs
        (by simp [Service.step, hk, ← h1, hb])
      have ho : r.occupied < r.workers := by
        rw [hr, Daemon.occupied]
        dsimp only
        rw [Daemon.flatMap_set (s' := ⟨s.config, .handshaking, s.tasks⟩) hs rfl]
        exact hw
      have hg : r.services[i]? = some ⟨s.config, .handshaking, s.tasks⟩ := by
        rw [hr]
        exact List.getElem?_set_self hlt
      obtain ⟨r', e', -⟩ := one (act := .secured tls) ho hg rfl
      refine ⟨_, _, Daemon.run_append e e', ?_, ?_⟩
      · intro b hm
        simp only [List.cons_append, List.nil_append, List.mem_cons, List.not_mem_nil, or_false] at hm
        rcases hm with rfl | rfl <;> rfl
      · simp [DaemonAct.client?]

/-- A connection that cannot be accepted changes nothing, however often this happens: the loop tries again at once. -/
theorem C85_failed (h : (Daemon.start workers configs).run L as = some (p, T)) (hw : p.occupied < p.workers)
    (hc : configs[i]? = some config) (hp : config.bindTls = false ∨ handshakePending i as = false) (n : Nat) :
    p.run L (List.replicate n (.service i .acceptFailed)) = some (p, []) := by
  have hf := Daemon.run_serves h
  have hlt : i < p.services.length := by rw [hf.count]; exact (List.getElem?_eq_some_iff.1 hc).1
  have hs : p.services[i]? = some p.services[i] := List.getElem?_eq_getElem hlt
  have h1 := hf.config i _ hs
  rw [hc] at h1
  have h1 := Option.some.inj h1
  have ha := (Daemon.run_fine h).accepting i _ hs
  rw [← h1] at ha
  have hk : p.services[i].accepting = .listening := by
    cases hk : p.services[i].accepting with
    | listening => rfl
    | handshaking =>
      have := ha.1 hk
      rcases hp with e | e
      · rw [e] at this; cases this.1
      · rw [e] at this; cases this.2
  have hstep : p.step L (.service i .acceptFailed) = some (p, []) := by
    rw [Daemon.step_of_service hw hs (s' := p.services[i]) (by simp only [Service.step, hk]), List.set_getElem_self]
  induction n with
  | zero => rfl
  | succ n ih => rw [List.replicate_succ, Daemon.run, hstep]; simp only [ih]; rfl

/-! ## Concrete cases -/

/-- The clients of `ServiceSample.acts`: two of the first service (a third one failed), two of the second, one of the third. -/
example : [(readyClients true 0 ServiceSample.acts).length, (readyClients false 1 ServiceSample.acts).length,
    (readyClients false 2 ServiceSample.acts).length] = [2, 2, 1] := by decide +kernel

example : ∃ p T, (ServiceSample.start 1).run Toy.lib ServiceSample.acts = some (p, T) ∧
    (∃ t, p.task? 0 1 = some t ∧
      Life Toy.lib ServiceSample.secure (some ProxyTlsSample.tc) (ownActs 0 1 ServiceSample.acts) t (taskItems 0 1 T)) ∧
    p.task? 0 2 = none := by
  obtain ⟨p, T, h, -⟩ := ServiceSample.run_acts
  refine ⟨p, T, h, C85_life h rfl rfl, ?_⟩
  have := C85_count (i := 0) (j := 2) h rfl
  cases ht : p.task? 0 2 with
  | none => rfl
  | some t => rw [ht] at this; exact absurd (this.1 rfl) (by decide +kernel)


end ImapFlow
