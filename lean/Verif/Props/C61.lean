import Verif.Props.C56
import Verif.Props.C59

/-!
# C61: a client that ends its TLS connection does not disturb the other clients (false; what holds instead)

A conversation that hangs (C56) occupies a worker thread of tokio for ever.  There are as many worker threads as CPU
cores (`/repo/proxy/src/main.rs:21`).
-/

namespace ImapFlow

variable {K : Type} {L : Lib} {workers : Nat} {configs : List ServiceConfig} {as : List (DaemonAct K)} {p : Daemon K}
  {T : List DaemonItem} {i j : Nat} {paired : K → K → Prop}

/-- If all worker threads are occupied the whole process stands still: no client of any service is served or
accepted. -/
theorem C61_stuck (h : p.workers ≤ p.occupied) (a : DaemonAct K) : p.step L a = none := by
  unfold Daemon.step
  rw [if_pos h]

/-- A client that ends its TLS connection (and so can the server) occupies a worker thread. -/
theorem C61_hangs (hL : L.Lawful) (hP : L.Proxyable) (h : (Daemon.start workers configs).run L as = some (p, T))
    (hconn : ∀ t, .service i (.secured t) ∈ as → Connected paired (some t)) {g : HandleGenerator} {q : Proxy K}
    (ht : p.task? i j = some (.talking g q)) (hc : (configs[i]?).map ServiceConfig.bindTls = some true) :
    ∃ t, .service i (.secured t) ∈ as ∧ ∀ (records more : Bytes) (cs : List RecordContent) (k : K),
      t.raw ++ streamRead (clientSide (taskItems i j T)) = records ++ more → t.layer.Carries t.readKey records cs k →
      RecordContent.closeNotify ∈ cs → q = .hung := by
  obtain ⟨config, tc, ts, gc, h1, h2, h3⟩ := C59_conversation h ht
  rw [h1] at hc
  have hb : config.bindTls = true := by simpa using hc
  cases tc with
  | none => have := h2.client; rw [hb] at this; cases this
  | some t =>
    have hm := h2.clientHandshake t rfl
    refine ⟨t, hm, fun records more cs k e1 e2 e3 => ?_⟩
    exact (C56_client_hangs hL hP (hconn t hm) h3 e1 e2 e3).1

/-- As many different conversations that hang (`C61_hangs`) as there are worker threads stop the whole process: no step
is possible. -/
theorem C61_standstill (h : (Daemon.start workers configs).run L as = some (p, T)) {ended : List (Nat × Nat)}
    (hn : ended.Nodup) (hw : workers ≤ ended.length)
    (hh : ∀ x ∈ ended, ∃ g, p.task? x.1 x.2 = some (.talking g .hung)) (a : DaemonAct K) : p.step L a = none := by
  refine C61_stuck ?_ a
  rw [(Daemon.run_fine h).workers]
  refine Nat.le_trans hw (le_countP_flatMap _ _ _ ended hn fun x hx => ?_)
  obtain ⟨g, hg⟩ := hh x hx
  rw [Daemon.task?, Option.bind_eq_some_iff] at hg
  obtain ⟨s, h1, h2⟩ := hg
  exact ⟨s, _, h1, h2, rfl⟩

/-- The claim is false: with one worker thread, one client that ends its connection stops everything. -/
theorem C61_false : ¬ ∀ (L : Lib) (_ : L.Lawful) (_ : L.Proxyable) (workers : Nat) (configs : List ServiceConfig)
    (as : List (DaemonAct Nat)) (p : Daemon Nat) (T : List DaemonItem) (_ : 0 < workers),
    (Daemon.start workers configs).run L as = some (p, T) →
    ∀ i config, configs[i]? = some config → config.bindTls = false → (p.step L (.service i (.accepted true))).isSome = true := by
  intro H
  obtain ⟨p, T, h, h1⟩ := ServiceSample.run_leave 1 (.inl rfl)
  have := H _ Toy.lawful Toy.proxyable 1 _ _ p T (by decide) h 1 _ rfl rfl
  have h2 : ((ServiceSample.start 1).run Toy.lib ServiceSample.leave).map (fun x => decide (x.1.workers ≤ x.1.occupied)) =
    some true := by decide +kernel
  rw [h] at h2
  rw [C61_stuck (by simpa using h2)] at this
  cases this

/-- What holds: the process does not stand still as long as all but fewer than `workers` conversations are with peers
that send valid records and do not end their TLS connections.  So (C59, C60) all other clients are served. -/
theorem C61_partial (hL : L.Lawful) (hP : L.Proxyable) (h : (Daemon.start workers configs).run L as = some (p, T))
    (hc : ∀ i t, .service i (.secured t) ∈ as → Connected paired (some t))
    (hs : ∀ i j t gc gs, .task i j (.secured t gc gs) ∈ as → Connected paired (some t)) {ended : List (Nat × Nat)}
    (hfew : ended.length < workers)
    (hplain : ∀ i j, (i, j) ∉ ended → ∀ config tc ts, configs[i]? = some config → FromHandshakes config i j as tc ts →
      (∃ plain, HoldsPlain tc (streamRead (clientSide (taskItems i j T))) plain) ∧
      ∃ plain, HoldsPlain ts (streamRead (serverSide (taskItems i j T))) plain) :
    p.occupied < workers := by
  refine Nat.lt_of_le_of_lt (countP_flatMap_le _ _ _ ended ?_) hfew
  intro i j s t h1 h2 h3
  apply Classical.byContradiction
  intro hn
  have ht : p.task? i j = some t := by rw [Daemon.task?, h1]; exact h2
  unfold Task.isHung at h3
  split at h3
  · rename_i g
    obtain ⟨config, tc, ts, gc, e1, e2, e3⟩ := C59_conversation h ht
    obtain ⟨⟨p1, k1⟩, p2, k2⟩ := hplain i j hn config tc ts e1 e2
    refine C56_only_then hL hP (paired := paired) ?_ ?_ e3 k1 k2 rfl
    · rintro t rfl
      exact hc i t (e2.clientHandshake t rfl) t rfl
    · rintro t rfl
      obtain ⟨gc, gs, hm⟩ := e2.serverHandshake t rfl
      exact hs i j t gc gs hm t rfl
  · cases h3

/-- One client of two has ended its connection and its conversation hangs.  With two worker threads the hypotheses of
`C61_partial` hold, and the other one is still served. -/
example : ∃ p T, (ServiceSample.start 2).run Toy.lib ServiceSample.leave = some (p, T) ∧
    ServiceSample.stages p = [[.talking .hung, .talking .conversation], [], []] ∧ p.occupied < 2 := by
  obtain ⟨p, T, h, h1⟩ := ServiceSample.run_leave 2 (.inr rfl)
  have h2 : ((ServiceSample.start 2).run Toy.lib ServiceSample.leave).map (fun x =>
      (streamRead (clientSide (taskItems 0 1 x.2)), streamRead (serverSide (taskItems 0 1 x.2)))) =
    some (ProxyTlsSample.fromClient, ProxyTlsSample.fromServer) := by decide +kernel
  rw [h] at h2
  simp only [Option.map_some, Option.some.injEq, Prod.mk.injEq] at h2
  have mc : ∀ i t, .service i (.secured t) ∈ ServiceSample.leave → i = 0 ∧ t = ProxyTlsSample.tc := by
    intro i t hm
    simpa [ServiceSample.leave, ServiceSample.join, ServiceSample.talk] using hm
  have ms : ∀ i j t gc gs, .task i j (.secured t gc gs) ∈ ServiceSample.leave → i = 0 ∧ j < 2 ∧ t = ProxyTlsSample.ts := by
    intro i j t gc gs hm
    simp [ServiceSample.leave, ServiceSample.join, ServiceSample.talk] at hm
    rcases hm with ⟨a, b, c, -⟩ | ⟨a, b, c, -⟩
    · exact ⟨a, by omega, c⟩
    · exact ⟨a, by omega, c⟩
  refine ⟨p, T, h, h1, C61_partial (paired := (· = ·)) (ended := [(0, 0)]) Toy.lawful Toy.proxyable h ?_ ?_ (by decide) ?_⟩
  · intro i t hm; rw [(mc i t hm).2]; exact ProxyTlsSample.tc_connected
  · intro i j t gc gs hm; rw [(ms i j t gc gs hm).2.2]; exact ProxyTlsSample.ts_connected
  · intro i j hn config tc ts hcfg hf
    have plain : ∀ bytes, ∃ plain, HoldsPlain (none : Option (Tls Nat)) bytes plain := fun b => ⟨b, rfl⟩
    cases ts with
    | none =>
      have e2 := hf.server
      cases tc with
      | none => exact ⟨plain _, plain _⟩
      | some t =>
        obtain ⟨rfl, -⟩ := mc i t (hf.clientHandshake t rfl)
        cases hcfg
        cases e2
    | some t =>
      obtain ⟨gc, gs, hm⟩ := hf.serverHandshake t rfl
      obtain ⟨rfl, hj, rfl⟩ := ms i j t gc gs hm
      have hj : j = 1 := by
        have : j ≠ 0 := by rintro rfl; exact hn (by simp)
        omega
      subst hj
      cases hcfg
      cases tc with
      | none => cases hf.client
      | some t =>
        obtain ⟨-, rfl⟩ := mc 0 t (hf.clientHandshake t rfl)
        rw [h2.1, h2.2]
        exact ⟨⟨ClientSample.ln "A Cz", (ProxyTlsSample.sealed (ClientSample.str "A C")) ++ ([254] ++ (ProxyTlsSample.sealed (ClientSample.ln "z") ++ [])), [],
          [.data (ClientSample.str "A C"), .other, .data (ClientSample.ln "z")], 6, by decide +kernel,
          .cons (k' := 4) (by decide +kernel) (.cons (k' := 5) (by decide +kernel) (.cons (by decide +kernel) (.nil _))),
          by simp, rfl, by decide +kernel⟩,
          ClientSample.ln "G[CRSQ]hi" ++ ClientSample.ln "oA done",
          (ProxyTlsSample.sealed (ClientSample.ln "G[CRSQ]hi")) ++ (ProxyTlsSample.sealed (ClientSample.ln "oA done") ++ []), [],
          [.data (ClientSample.ln "G[CRSQ]hi"), .data (ClientSample.ln "oA done")], 3, by decide +kernel,
          .cons (k' := 2) (by decide +kernel) (.cons (by decide +kernel) (.nil _)), by simp, rfl, by decide +kernel⟩

end ImapFlow
