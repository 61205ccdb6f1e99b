import Verif.Spec.Sockets
import Verif.Proofs.RelayDelivered
import Verif.Proofs.NoFlush

/-!
# Lemmas on sockets that hold a limited number of bytes
-/

namespace ImapFlow

variable {K σ ε ev ι : Type}

namespace FullStream

/-- A stream that is not in `flush` and not at rest can read, or it calls `next`, or nothing is on the way to it and it
writes. -/
theorem step_hears (M : Machine σ ε ev ι) {c : FullStream K σ} {wire : Bytes}
    (ha : c.ctl ≠ .at .dead ∧ c.ctl ≠ .hung ∧ c.ctl ≠ .broken) (hf : c.ctl ≠ .at .flushing) (hw : wire ≠ []) :
    ∃ act : SideAct ι, act.Internal wire ∧ (∀ op, act ≠ .user op) ∧ (∀ n, act ≠ .write n) ∧
      ∃ x, c.step M (act.toStream wire) = some x := by
  obtain ⟨tls, rb, wb, st, ctl⟩ := c
  cases ctl with
  | hung => exact absurd rfl ha.2.1
  | broken => exact absurd rfl ha.2.2
  | «at» ctl =>
    cases ctl with
    | dead => exact absurd rfl ha.1
    | idle => exact ⟨.callNext, trivial, nofun, nofun, _, rfl⟩
    | reading => exact ⟨.read 1, ⟨by omega, hw⟩, nofun, nofun, _, rfl⟩
    | racing => exact ⟨.read 1, ⟨by omega, hw⟩, nofun, nofun, _, rfl⟩
    | flushing => exact absurd rfl hf

/-- A stream that does not wait for input can do something while there is room for one byte. -/
theorem step_writes (M : Machine σ ε ev ι) {c : FullStream K σ} {wire : Bytes} (hp : c.Pending)
    (ha : c.ctl ≠ .at .dead ∧ c.ctl ≠ .hung ∧ c.ctl ≠ .broken) (hr : c.ctl ≠ .at .reading) :
    ∃ act : SideAct ι, act.Internal wire ∧ (∀ op, act ≠ .user op) ∧ (∀ n, act = .write n → n = 1) ∧
      ∃ x, c.step M (act.toStream wire) = some x := by
  obtain ⟨tls, rb, wb, st, ctl⟩ := c
  cases ctl with
  | hung => exact absurd rfl ha.2.1
  | broken => exact absurd rfl ha.2.2
  | «at» ctl =>
    cases ctl with
    | dead => exact absurd rfl ha.1
    | idle => exact ⟨.callNext, trivial, nofun, nofun, _, rfl⟩
    | reading => exact absurd rfl hr
    | racing =>
      have : wb ≠ [] := hp (.inl rfl)
      have hl : 1 ≤ wb.length := List.length_pos_iff.2 this
      exact ⟨.write 1, by simp [SideAct.Internal], nofun, by rintro n ⟨⟩; rfl, _, by simp only [SideAct.toStream, step, hl, if_true]; rfl⟩
    | flushing =>
      have : wb ≠ [] := hp (.inr rfl)
      have hl : 1 ≤ wb.length := List.length_pos_iff.2 this
      exact ⟨.write 1, by simp [SideAct.Internal], nofun, by rintro n ⟨⟩; rfl, _, by simp only [SideAct.toStream, step, hl, if_true]; rfl⟩

end FullStream

/-! ## Two streams -/

namespace StreamNet

variable {L : Lib} {k : Capacities} {sn sn' sn0 : StreamNet K} {G G' : List StreamNetItem}

theorem MovesWithin.moves (h : sn.MovesWithin L k sn' G) : sn.Moves L sn' G := by
  obtain ⟨a, h1, -, h2⟩ := h
  exact ⟨a, h1, h2⟩

theorem UnattendedWithin.unattended (h : sn.UnattendedWithin L k sn' G) : sn.Unattended L sn' G := by
  induction h with
  | nil => exact .nil
  | snoc _ hm ih => exact ih.snoc hm.moves

theorem client_within {act : SideAct ClientOp} (h1 : act.Internal sn.toClient) (h2 : ∀ op, act ≠ .user op)
    (h3 : act.Fits sn.toServer k.toServer) (h4 : ∃ x, sn.client.step (clientMachine L) (act.toStream sn.toClient) = some x) :
    ∃ sn' G, sn.MovesWithin L k sn' G := by
  obtain ⟨⟨c, V⟩, h4⟩ := h4
  refine ⟨{ sn with client := c, toClient := act.rest sn.toClient, toServer := sn.toServer ++ streamWrote (streamPart V) },
    V.map .client, .client act, h1, h3, ?_⟩
  cases act with
  | user op => exact absurd rfl (h2 op)
  | _ => simp only [step, StreamNet.clientStep, h4]

theorem server_within {act : SideAct ServerOp} (h1 : act.Internal sn.toServer) (h2 : ∀ op, act ≠ .user op)
    (h3 : act.Fits sn.toClient k.toClient) (h4 : ∃ x, sn.server.step (serverMachine L) (act.toStream sn.toServer) = some x) :
    ∃ sn' G, sn.MovesWithin L k sn' G := by
  obtain ⟨⟨c, V⟩, h4⟩ := h4
  refine ⟨{ sn with server := c, toServer := act.rest sn.toServer, toClient := sn.toClient ++ streamWrote (streamPart V) },
    V.map .server, .server act, h1, h3, ?_⟩
  cases act with
  | user op => exact absurd rfl (h2 op)
  | _ => simp only [step, StreamNet.serverStep, h4]

theorem _root_.ImapFlow.SideAct.fits_of_not_write {ι : Type} {act : SideAct ι} {wire : Bytes} {n : Nat}
    (h : ∀ n, act ≠ .write n) : act.Fits wire n := by
  cases act with
  | write n => exact absurd rfl (h n)
  | _ => trivial

theorem _root_.ImapFlow.SideAct.fits_one {ι : Type} {act : SideAct ι} {n : Nat} (hn : 0 < n)
    (h : ∀ n, act = .write n → n = 1) : act.Fits [] n := by
  cases act with
  | write n => cases h n rfl; simp only [SideAct.Fits, List.length_nil]; omega
  | _ => trivial

/-- A system that does not wait can move within the capacities, unless both users are in `flush`. -/
theorem Tracks.possible_within {paired : K → K → Prop} {n : Net} (h : Tracks paired sn n)
    (hp : sn.client.Pending ∧ sn.server.Pending) (hk : 0 < k.toServer ∧ 0 < k.toClient)
    (hf : ¬ (sn.client.ctl = .at .flushing ∧ sn.server.ctl = .at .flushing)) (hw : ¬ sn.Waiting) :
    ∃ sn' G, sn.MovesWithin L k sn' G := by
  have hearC : sn.client.ctl ≠ .at .flushing → sn.toClient ≠ [] → ∃ sn' G, sn.MovesWithin L k sn' G := fun h1 h2 => by
    obtain ⟨act, a1, a2, a3, a4⟩ := FullStream.step_hears (clientMachine L) h.clientSound.alive h1 h2
    exact client_within a1 a2 (SideAct.fits_of_not_write a3) a4
  have hearS : sn.server.ctl ≠ .at .flushing → sn.toServer ≠ [] → ∃ sn' G, sn.MovesWithin L k sn' G := fun h1 h2 => by
    obtain ⟨act, a1, a2, a3, a4⟩ := FullStream.step_hears (serverMachine L) h.serverSound.alive h1 h2
    exact server_within a1 a2 (SideAct.fits_of_not_write a3) a4
  have writeC : sn.client.ctl ≠ .at .reading → sn.toServer = [] → ∃ sn' G, sn.MovesWithin L k sn' G := fun h1 h2 => by
    obtain ⟨act, a1, a2, a3, a4⟩ := FullStream.step_writes (clientMachine L) hp.1 h.clientSound.alive h1
    exact client_within a1 a2 (h2 ▸ SideAct.fits_one hk.1 a3) a4
  have writeS : sn.server.ctl ≠ .at .reading → sn.toClient = [] → ∃ sn' G, sn.MovesWithin L k sn' G := fun h1 h2 => by
    obtain ⟨act, a1, a2, a3, a4⟩ := FullStream.step_writes (serverMachine L) hp.2 h.serverSound.alive h1
    exact server_within a1 a2 (h2 ▸ SideAct.fits_one hk.2 a3) a4
  by_cases e1 : sn.toServer = []
  · by_cases c1 : sn.client.ctl = .at .reading
    · by_cases e2 : sn.toClient = []
      · by_cases c2 : sn.server.ctl = .at .reading
        · exact absurd ⟨e1, e2, c1, c2⟩ hw
        · exact writeS c2 e2
      · exact hearC (by rw [c1]; nofun) e2
    · exact writeC c1 e1
  · by_cases c2 : sn.server.ctl = .at .flushing
    · by_cases e2 : sn.toClient = []
      · exact writeS (by rw [c2]; nofun) e2
      · exact hearC (fun c1 => hf ⟨c1, c2⟩) e2
    · exact hearS c2 e1

theorem _root_.ImapFlow.SideAct.Internal.not_flush {ι : Type} {act : SideAct ι} {wire : Bytes} (h : act.Internal wire) :
    act.toStream wire ≠ .callFlush := by
  cases act <;> first | exact h.elim | nofun

/-- A step at one of the streams. -/
theorem step_inv {a : StreamNetAct} (h : sn.step L a = some (sn', G)) :
    (∃ act c V, a = .client act ∧ sn.client.step (clientMachine L) (act.toStream sn.toClient) = some (c, V) ∧
      sn' = { sn with client := c, toClient := act.rest sn.toClient, toServer := sn.toServer ++ streamWrote (streamPart V) }) ∨
    (∃ act c V, a = .server act ∧ sn.server.step (serverMachine L) (act.toStream sn.toServer) = some (c, V) ∧
      sn' = { sn with server := c, toServer := act.rest sn.toServer, toClient := sn.toClient ++ streamWrote (streamPart V) }) := by
  have hc : ∀ act, sn.clientStep L act = some (sn', G) → ∃ c V,
      sn.client.step (clientMachine L) (act.toStream sn.toClient) = some (c, V) ∧
      sn' = { sn with client := c, toClient := act.rest sn.toClient, toServer := sn.toServer ++ streamWrote (streamPart V) } := by
    intro act h
    unfold StreamNet.clientStep at h
    split at h
    · cases h
    · rename_i c V hs
      cases h
      exact ⟨c, V, hs, rfl⟩
  have hs : ∀ act, sn.serverStep L act = some (sn', G) → ∃ c V,
      sn.server.step (serverMachine L) (act.toStream sn.toServer) = some (c, V) ∧
      sn' = { sn with server := c, toServer := act.rest sn.toServer, toClient := sn.toClient ++ streamWrote (streamPart V) } := by
    intro act h
    unfold StreamNet.serverStep at h
    split at h
    · cases h
    · rename_i c V hs
      cases h
      exact ⟨c, V, hs, rfl⟩
  unfold StreamNet.step at h
  split at h
  · cases h
  · cases h
  · cases h
  · cases h
  · obtain ⟨c, V, h1, h2⟩ := hc _ h
    exact .inl ⟨_, c, V, rfl, h1, h2⟩
  · obtain ⟨c, V, h1, h2⟩ := hs _ h
    exact .inr ⟨_, c, V, rfl, h1, h2⟩

/-- The users do not get into `flush`. -/
theorem Moves.flushing (h : sn.Moves L sn' G) :
    (sn.client.ctl ≠ .at .flushing → sn'.client.ctl ≠ .at .flushing) ∧
    (sn.server.ctl ≠ .at .flushing → sn'.server.ctl ≠ .at .flushing) := by
  obtain ⟨a, hi, hs⟩ := h
  rcases step_inv hs with ⟨act, c, V, rfl, h1, rfl⟩ | ⟨act, c, V, rfl, h1, rfl⟩
  · exact ⟨(FullStream.step_flushing h1).1 (SideAct.Internal.not_flush hi), id⟩
  · exact ⟨id, (FullStream.step_flushing h1).1 (SideAct.Internal.not_flush hi)⟩

theorem Unattended.flushing (h : sn.Unattended L sn' G) :
    (sn.client.ctl ≠ .at .flushing → sn'.client.ctl ≠ .at .flushing) ∧
    (sn.server.ctl ≠ .at .flushing → sn'.server.ctl ≠ .at .flushing) := by
  induction h with
  | nil => exact ⟨id, id⟩
  | snoc _ hm ih => exact ⟨hm.flushing.1 ∘ ih.1, hm.flushing.2 ∘ ih.2⟩

theorem runWithin_run {as : List StreamNetAct} (h : sn.runWithin L k as = some (sn', G)) : sn.run L as = some (sn', G) := by
  induction as generalizing sn G with
  | nil => exact h
  | cons a as ih =>
    simp only [StreamNet.runWithin] at h
    split at h
    · split at h
      · cases h
      · rename_i n1 G1 hs
        split at h
        · cases h
        · rename_i n2 G2 hr
          cases h
          simp only [StreamNet.run, hs, ih hr]
    · cases h

/-- Nothing moves if both users are in `flush` and the channels are full. -/
theorem stuck_flush (hc : sn.client.ctl = .at .flushing) (hs : sn.server.ctl = .at .flushing)
    (hk : k.toServer ≤ sn.toServer.length ∧ k.toClient ≤ sn.toClient.length) : ¬ sn.MovesWithin L k sn' G := by
  rintro ⟨a, hi, hf, h⟩
  rcases step_inv h with ⟨act, c, V, rfl, h1, rfl⟩ | ⟨act, c, V, rfl, h1, rfl⟩
  · cases act with
    | callNext => simp [SideAct.toStream, FullStream.step, hc] at h1
    | read n => simp [SideAct.toStream, FullStream.step, hc] at h1
    | write n =>
      simp only [StreamNetAct.Internal, SideAct.Internal, StreamNetAct.Fits, SideAct.Fits] at hi hf
      omega
    | _ => exact hi.elim
  · cases act with
    | callNext => simp [SideAct.toStream, FullStream.step, hs] at h1
    | read n => simp [SideAct.toStream, FullStream.step, hs] at h1
    | write n =>
      simp only [StreamNetAct.Internal, SideAct.Internal, StreamNetAct.Fits, SideAct.Fits] at hi hf
      omega
    | _ => exact hi.elim

/-- The channels hold what they can hold. -/
theorem step_within {a : StreamNetAct} (hk : sn.toServer.length ≤ k.toServer ∧ sn.toClient.length ≤ k.toClient)
    (ha : a.Fits k sn) (h : sn.step L a = some (sn', G)) :
    sn'.toServer.length ≤ k.toServer ∧ sn'.toClient.length ≤ k.toClient := by
  rcases step_inv h with ⟨act, c, V, rfl, h1, rfl⟩ | ⟨act, c, V, rfl, h1, rfl⟩
  · have := (FullStream.step_flushing h1).2
    dsimp only
    rw [List.length_append, this]
    cases act <;> simp [SideAct.toStream, StreamAct.accepted, SideAct.rest, StreamNetAct.Fits, SideAct.Fits] at ha ⊢ <;> omega
  · have := (FullStream.step_flushing h1).2
    dsimp only
    rw [List.length_append, this]
    cases act <;> simp [SideAct.toStream, StreamAct.accepted, SideAct.rest, StreamNetAct.Fits, SideAct.Fits] at ha ⊢ <;> omega

theorem runWithin_within {as : List StreamNetAct} (hk : sn.toServer.length ≤ k.toServer ∧ sn.toClient.length ≤ k.toClient)
    (h : sn.runWithin L k as = some (sn', G)) :
    sn'.toServer.length ≤ k.toServer ∧ sn'.toClient.length ≤ k.toClient := by
  induction as generalizing sn G with
  | nil => cases h; exact hk
  | cons a as ih =>
    simp only [StreamNet.runWithin] at h
    split at h
    · rename_i hf
      split at h
      · cases h
      · rename_i n1 G1 hs
        split at h
        · cases h
        · rename_i n2 G2 hr
          cases h
          exact ih (step_within hk hf hs) hr
    · cases h

theorem UnattendedWithin.within (h : sn.UnattendedWithin L k sn' G)
    (hk : sn.toServer.length ≤ k.toServer ∧ sn.toClient.length ≤ k.toClient) :
    sn'.toServer.length ≤ k.toServer ∧ sn'.toClient.length ≤ k.toClient := by
  induction h with
  | nil => exact hk
  | snoc _ hm ih =>
    obtain ⟨a, -, hf, hs⟩ := hm
    exact step_within ih hf hs

end StreamNet

/-! ## With the proxy between them -/

namespace Relay

variable {paired : K → K → Prop} {L : Lib} {tc tpc tps ts : Option (Tls K)} {gc gpc gps gs : HandleGenerator}
  {oc : ClientOptions} {op os : ServerOptions} {gr : Greeting} {r r' : Relay K} {R I : List RelayItem} {as : List RelayAct}
  {k : RelayCapacities}

theorem MovesWithin.moves (h : r.MovesWithin L gps k r' I) : r.Moves L gps r' I := by
  obtain ⟨a, h1, -, h2⟩ := h
  exact ⟨a, h1, h2⟩

theorem UnattendedWithin.unattended (h : r.UnattendedWithin L gps k r' I) : r.Unattended L gps r' I := by
  induction h with
  | nil => exact .nil
  | snoc _ hm ih => exact ih.snoc hm.moves

theorem step_noFlush {a : RelayAct} (hp : r.proxy.NoFlush) (h : r.step L gps a = some (r', I)) : r'.proxy.NoFlush := by
  have hc : ∀ act, r.clientStep L act = some (r', I) → r'.proxy.NoFlush := by
    intro act h
    unfold Relay.clientStep at h
    split at h <;> cases h
    exact hp
  have hs : ∀ act, r.serverStep L act = some (r', I) → r'.proxy.NoFlush := by
    intro act h
    unfold Relay.serverStep at h
    split at h <;> cases h
    exact hp
  unfold Relay.step at h
  split at h
  · cases h
  · cases h
  · cases h
  · cases h
  · exact hc _ h
  · exact hs _ h
  · split at h <;> cases h
    rename_i hst
    exact Proxy.step_noFlush hp hst
  · split at h <;> cases h
    rename_i hst
    exact Proxy.step_noFlush hp hst

theorem run_noFlush (hp : r.proxy.NoFlush) (h : r.run L gps as = some (r', R)) : r'.proxy.NoFlush := by
  induction as generalizing r R with
  | nil => cases h; exact hp
  | cons a as ih =>
    simp only [Relay.run] at h
    split at h
    · cases h
    · rename_i r1 I1 hs
      split at h
      · cases h
      · rename_i r2 I2 hr
        cases h
        exact ih (step_noFlush hp hs) hr

theorem client_within {act : SideAct ClientOp} (h1 : act.Internal r.proxyToClient) (h2 : ∀ op, act ≠ .user op)
    (h3 : act.Fits r.clientToProxy k.clientToProxy)
    (h4 : ∃ x, r.client.step (clientMachine L) (act.toStream r.proxyToClient) = some x) :
    ∃ r' I, r.MovesWithin L gps k r' I := by
  obtain ⟨x, h4⟩ := h4
  obtain ⟨⟨q, J⟩, hs⟩ : ∃ x, r.clientStep L act = some x := by simp only [Relay.clientStep, h4]; exact ⟨_, rfl⟩
  refine ⟨q, J, .client act, h1, h3, ?_⟩
  cases act with
  | user op => exact absurd rfl (h2 op)
  | _ => exact hs

theorem server_within {act : SideAct ServerOp} (h1 : act.Internal r.proxyToServer) (h2 : ∀ op, act ≠ .user op)
    (h3 : act.Fits r.serverToProxy k.serverToProxy)
    (h4 : ∃ x, r.server.step (serverMachine L) (act.toStream r.proxyToServer) = some x) :
    ∃ r' I, r.MovesWithin L gps k r' I := by
  obtain ⟨x, h4⟩ := h4
  obtain ⟨⟨q, J⟩, hs⟩ : ∃ x, r.serverStep L act = some x := by simp only [Relay.serverStep, h4]; exact ⟨_, rfl⟩
  refine ⟨q, J, .server act, h1, h3, ?_⟩
  cases act with
  | user op => exact absurd rfl (h2 op)
  | _ => exact hs

theorem _root_.ImapFlow.SideAct.polled_fits {ι : Type} {act : SideAct ι} {wire channel : Bytes} {n : Nat}
    (h : act.Internal wire) (hu : ∀ op, act ≠ .user op) (hf : act.Fits channel n) :
    ∃ a : PollAct, a.Internal wire ∧ a.Fits channel n ∧ (a.toIo wire).toStream = act.toStream wire := by
  cases act with
  | user op => exact absurd rfl (hu op)
  | callNext => exact ⟨.poll, trivial, trivial, rfl⟩
  | read n => exact ⟨.read n, h, trivial, rfl⟩
  | write n => exact ⟨.write n, h, hf, rfl⟩
  | _ => exact h.elim

theorem proxyClient_within {d : FullStream K Server} {u : FullStream K Client} (hq : r.proxy = .conversation d u)
    {act : SideAct ServerOp} (h1 : act.Internal r.clientToProxy) (h2 : ∀ op, act ≠ .user op)
    (h3 : act.Fits r.proxyToClient k.proxyToClient)
    (h4 : ∃ x, d.step (serverMachine L) (act.toStream r.clientToProxy) = some x) :
    ∃ r' I, r.MovesWithin L gps k r' I := by
  obtain ⟨x, h4⟩ := h4
  obtain ⟨a, a1, a2, a3⟩ := SideAct.polled_fits h1 h2 h3
  rw [← a3] at h4
  obtain ⟨⟨p, J⟩, h6⟩ := Proxy.step_client_possible (u := u) (gps := gps) h4
  exact ⟨_, _, .proxyClient a, a1, a2, by simp only [step, hq, h6]; rfl⟩

theorem proxyServer_within {u : FullStream K Client} (hq : (∃ d, r.proxy = .conversation d u) ∨ ∃ t, r.proxy = .greeting t u)
    {act : SideAct ClientOp} (h1 : act.Internal r.serverToProxy) (h2 : ∀ op, act ≠ .user op)
    (h3 : act.Fits r.proxyToServer k.proxyToServer)
    (h4 : ∃ x, u.step (clientMachine L) (act.toStream r.serverToProxy) = some x) :
    ∃ r' I, r.MovesWithin L gps k r' I := by
  obtain ⟨x, h4⟩ := h4
  obtain ⟨a, a1, a2, a3⟩ := SideAct.polled_fits h1 h2 h3
  rw [← a3] at h4
  rcases hq with ⟨d, hq⟩ | ⟨t, hq⟩
  · obtain ⟨⟨p, J⟩, h6⟩ := Proxy.step_server_possible (d := d) (gps := gps) h4
    exact ⟨_, _, .proxyServer a, a1, a2, by simp only [step, hq, h6]; rfl⟩
  · obtain ⟨⟨p, J⟩, h6⟩ := Proxy.step_greeting_possible (t := t) (gps := gps) h4
    exact ⟨_, _, .proxyServer a, a1, a2, by simp only [step, hq, h6]; rfl⟩

/-- A system that does not wait can move within the capacities. -/
theorem possible_within (hL : L.Lawful) (hP : L.Proxyable) (hopt : proxyServerOptions L = .ok op) (hO : ServerOptions.Built L os)
    (hmax : 0 < os.maxCommandSize) (hc : Handshaken paired tc tpc) (hv : Handshaken paired tps ts)
    (h : (Relay.new tc tpc tps ts gc oc gpc gs os gr).run L gps as = some (r, R)) (hr : RelayAccepted R)
    {c : Client} {s : Server} {A : List CItem} {S : List SItem}
    (hA : (Client.new gc oc).trace L (clientOps (streamPart (relayClient R))) = .ok (c, A))
    (hS : (Server.new gs os gr).trace L (serverOps (streamPart (relayServer R))) = .ok (s, S))
    (hU : RelayUsers L oc .default op os gr A S) (hopen : RelayOpen R)
    (hk : (0 < k.clientToProxy ∧ 0 < k.proxyToClient) ∧ 0 < k.proxyToServer ∧ 0 < k.serverToProxy)
    (hw : ¬ r.Waiting) : ∃ r' I, r.MovesWithin L gps k r' I := by
  have hgreet := Relay.greeting_comes hL hP hopt hO hmax hc hv h hr hA hS hU
  have hover := Relay.not_over hL hP hopt hO hmax hc hv h hr hA hS hU hopen
  have hnf := run_noFlush (r := Relay.new tc tpc tps ts gc oc gpc gs os gr)
    (Proxy.new_noFlush tps (Client.new gpc .default)) h
  obtain ⟨gx, d, u, n1, n2, hl, ⟨p1, p2⟩, p3, p4⟩ := laid hL hP hopt hO hc hv h hr
  have hearC : r.client.ctl = .at .reading → r.proxyToClient ≠ [] → ∃ r' I, r.MovesWithin L gps k r' I := fun h1 h2 => by
    obtain ⟨act, a1, a2, a3, a4⟩ := FullStream.step_hears (clientMachine L) hl.nearTracks.clientSound.alive
      (show r.client.ctl ≠ .at .flushing by rw [h1]; nofun) h2
    exact client_within a1 a2 (SideAct.fits_of_not_write a3) a4
  have hearS : r.server.ctl = .at .reading → r.proxyToServer ≠ [] → ∃ r' I, r.MovesWithin L gps k r' I := fun h1 h2 => by
    obtain ⟨act, a1, a2, a3, a4⟩ := FullStream.step_hears (serverMachine L) hl.farTracks.serverSound.alive
      (show r.server.ctl ≠ .at .flushing by rw [h1]; nofun) h2
    exact server_within a1 a2 (SideAct.fits_of_not_write a3) a4
  have writeC : r.client.ctl ≠ .at .reading → r.clientToProxy = [] → ∃ r' I, r.MovesWithin L gps k r' I := fun h1 h2 => by
    obtain ⟨act, a1, a2, a3, a4⟩ := FullStream.step_writes (clientMachine L) p1 hl.nearTracks.clientSound.alive h1
    exact client_within a1 a2 (h2 ▸ SideAct.fits_one hk.1.1 a3) a4
  have writeS : r.server.ctl ≠ .at .reading → r.serverToProxy = [] → ∃ r' I, r.MovesWithin L gps k r' I := fun h1 h2 => by
    obtain ⟨act, a1, a2, a3, a4⟩ := FullStream.step_writes (serverMachine L) p4 hl.farTracks.serverSound.alive h1
    exact server_within a1 a2 (h2 ▸ SideAct.fits_one hk.2.2 a3) a4
  have hearU : ((∃ d, r.proxy = .conversation d u) ∨ ∃ t, r.proxy = .greeting t u) → r.serverToProxy ≠ [] →
      ∃ r' I, r.MovesWithin L gps k r' I := fun hq h2 => by
    have hf : u.ctl ≠ .at .flushing := by
      rcases hq with ⟨d, hq⟩ | ⟨t, hq⟩ <;> rw [hq] at hnf
      · exact hnf.2
      · exact hnf
    obtain ⟨act, a1, a2, a3, a4⟩ := FullStream.step_hears (clientMachine L) hl.farTracks.clientSound.alive hf h2
    exact proxyServer_within hq a1 a2 (SideAct.fits_of_not_write a3) a4
  have writeU : ((∃ d, r.proxy = .conversation d u) ∨ ∃ t, r.proxy = .greeting t u) → u.ctl ≠ .at .reading → r.proxyToServer = [] →
      ∃ r' I, r.MovesWithin L gps k r' I := fun hq h1 h2 => by
    obtain ⟨act, a1, a2, a3, a4⟩ := FullStream.step_writes (clientMachine L) p3 hl.farTracks.clientSound.alive h1
    exact proxyServer_within hq a1 a2 (h2 ▸ SideAct.fits_one hk.2.1 a3) a4
  rcases hl.proxy with ⟨t, hq⟩ | hq | hq
  · by_cases e1 : r.serverToProxy = []
    · by_cases c1 : r.server.ctl = .at .reading
      · by_cases e2 : r.proxyToServer = []
        · exact writeU (.inr ⟨t, hq⟩) (fun c2 => hgreet ⟨t, u, hq, c2, e1, c1⟩) e2
        · exact hearS c1 e2
      · exact writeS c1 e1
    · exact hearU (.inr ⟨t, hq⟩) e1
  · have hearD : r.clientToProxy ≠ [] → ∃ r' I, r.MovesWithin L gps k r' I := fun h2 => by
      rw [hq] at hnf
      obtain ⟨act, a1, a2, a3, a4⟩ := FullStream.step_hears (serverMachine L) hl.nearTracks.serverSound.alive hnf.1 h2
      exact proxyClient_within hq a1 a2 (SideAct.fits_of_not_write a3) a4
    have writeD : d.ctl ≠ .at .reading → r.proxyToClient = [] → ∃ r' I, r.MovesWithin L gps k r' I := fun h1 h2 => by
      obtain ⟨act, a1, a2, a3, a4⟩ := FullStream.step_writes (serverMachine L) p2 hl.nearTracks.serverSound.alive h1
      exact proxyClient_within hq a1 a2 (h2 ▸ SideAct.fits_one hk.1.2 a3) a4
    by_cases e1 : r.clientToProxy = []
    · by_cases e2 : r.serverToProxy = []
      · by_cases c1 : r.client.ctl = .at .reading
        · by_cases c2 : r.server.ctl = .at .reading
          · by_cases e3 : r.proxyToClient = []
            · by_cases e4 : r.proxyToServer = []
              · by_cases c3 : d.ctl = .at .reading
                · by_cases c4 : u.ctl = .at .reading
                  · exact absurd ⟨⟨e1, e3, e4, e2⟩, c1, c2, d, u, hq, c3, c4⟩ hw
                  · exact writeU (.inl ⟨d, hq⟩) c4 e4
                · exact writeD c3 e3
              · exact hearS c2 e4
            · exact hearC c1 e3
          · exact writeS c2 e2
        · exact writeC c1 e1
      · exact hearU (.inl ⟨d, hq⟩) e2
    · exact hearD e1
  · exact absurd hq hover

end Relay

/-- A system at rest does not move. -/
theorem StreamNet.Waiting.stuck {L : Lib} {k : Capacities} {sn sn' : StreamNet K} {G : List StreamNetItem} (h : sn.Waiting) :
    ¬ sn.MovesWithin L k sn' G := by
  obtain ⟨h1, h2, h3, h4⟩ := h
  rintro ⟨a, hi, -, hs⟩
  rcases StreamNet.step_inv hs with ⟨act, c, V, rfl, h1, rfl⟩ | ⟨act, c, V, rfl, h1, rfl⟩
  · cases act with
    | callNext => simp [SideAct.toStream, FullStream.step, h3] at h1
    | read n => exact hi.2 h2
    | write n => simp [SideAct.toStream, FullStream.step, h3] at h1
    | _ => exact hi.elim
  · cases act with
    | callNext => simp [SideAct.toStream, FullStream.step, h4] at h1
    | read n => exact hi.2 (by assumption)
    | write n => simp [SideAct.toStream, FullStream.step, h4] at h1
    | _ => exact hi.elim

theorem Relay.Waiting.atRest {r : Relay K} (h : r.Waiting) : r.AtRest := by
  obtain ⟨⟨h1, h2, h3, h4⟩, h5, h6, c, s, h7, h8, h9⟩ := h
  refine ⟨⟨h5, h2⟩, ⟨h6, h3⟩, ?_⟩
  rw [h7]
  exact ⟨⟨h8, h1⟩, h9, h4⟩

/-- A system at rest does not move. -/
theorem Relay.Waiting.stuck {L : Lib} {g : HandleGenerator} {k : RelayCapacities} {r r' : Relay K} {I : List RelayItem}
    (h : r.Waiting) : ¬ r.MovesWithin L g k r' I := by
  obtain ⟨⟨h1, h2, h3, h4⟩, h5, h6, c, s, h7, h8, h9⟩ := h
  rintro ⟨a, hi, -, hs⟩
  cases a with
  | client act =>
    cases act with
    | callNext => simp [Relay.step, Relay.clientStep, SideAct.toStream, FullStream.step, h5] at hs
    | read n => exact hi.2 h2
    | write n => simp [Relay.step, Relay.clientStep, SideAct.toStream, FullStream.step, h5] at hs
    | _ => exact hi.elim
  | server act =>
    cases act with
    | callNext => simp [Relay.step, Relay.serverStep, SideAct.toStream, FullStream.step, h6] at hs
    | read n => exact hi.2 h3
    | write n => simp [Relay.step, Relay.serverStep, SideAct.toStream, FullStream.step, h6] at hs
    | _ => exact hi.elim
  | proxyClient act =>
    cases act with
    | poll => simp [Relay.step, h7, Proxy.step, PollAct.toIo, IoAct.toStream, FullStream.step, h8] at hs
    | read n => exact hi.2 h1
    | write n => simp [Relay.step, h7, Proxy.step, PollAct.toIo, IoAct.toStream, FullStream.step, h8] at hs
    | _ => exact hi.elim
  | proxyServer act =>
    cases act with
    | poll => simp [Relay.step, h7, Proxy.step, PollAct.toIo, IoAct.toStream, FullStream.step, h9] at hs
    | read n => exact hi.2 h4
    | write n => simp [Relay.step, h7, Proxy.step, PollAct.toIo, IoAct.toStream, FullStream.step, h9] at hs
    | _ => exact hi.elim

end ImapFlow
