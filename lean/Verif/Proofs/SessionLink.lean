import Verif.Spec.Session
import Verif.Proofs.ExampleSteps
import Verif.Proofs.RelayBound
import Verif.Proofs.RelayEnd
import Verif.Proofs.StreamRest

/-!
# The streams of two example programs are a system of two streams
-/

namespace ImapFlow

variable {K : Type} {L : Lib} {gc gs : HandleGenerator} {os : ServerOptions} {gr : Greeting}

theorem StreamNet.run_snoc {sn sn1 sn2 : StreamNet K} {as : List StreamNetAct} {a : StreamNetAct} {G G' : List StreamNetItem}
    (h : sn.run L as = some (sn1, G)) (h' : sn1.step L a = some (sn2, G')) :
    sn.run L (as ++ [a]) = some (sn2, G ++ G') := by
  induction as generalizing sn G with
  | nil => cases h; simp [StreamNet.run, h']
  | cons b as ih =>
    obtain ⟨sn3, G1, G2, h1, h2, rfl⟩ := StreamNet.run_cons h
    simp only [List.cons_append, StreamNet.run, h1, ih h2, List.append_assoc]

/-- The state `sn` was reached, `S` and `S'` happened at the streams, and `T` is the record of the calls. -/
structure Linkage (L : Lib) (gc gs : HandleGenerator) (os : ServerOptions) (gr : Greeting) (sn : StreamNet K)
    (S : List (StreamItem ClientError ClientEvent ClientOp)) (S' : List (StreamItem ServerError ServerEvent ServerOp))
    (G : List StreamNetItem) (n : Net) (T : List NItem) : Prop where
  run : ∃ as, (StreamNet.new none none gc .default gs os gr).run L as = some (sn, G)
  net : (Net.new gc .default gs os gr).run L (G.flatMap StreamNetItem.calls) = .ok (n, T)
  client : atClient G = S
  server : atServer G = S'

namespace Linkage

variable {sn : StreamNet K} {S : List (StreamItem ClientError ClientEvent ClientOp)}
  {S' : List (StreamItem ServerError ServerEvent ServerOp)} {G : List StreamNetItem} {n : Net} {T : List NItem}

theorem start (K : Type) (L : Lib) (gc gs : HandleGenerator) (os : ServerOptions) (gr : Greeting) :
    Linkage L gc gs os gr (StreamNet.new (K := K) none none gc .default gs os gr) [] [] [] (Net.new gc .default gs os gr) [] :=
  ⟨⟨[], rfl⟩, rfl, rfl, rfl⟩

theorem calm (h : Linkage L gc gs os gr sn S S' G n T) : .client .refused ∉ G ∧ .server .refused ∉ G := by
  obtain ⟨as, hr⟩ := h.run
  obtain ⟨⟨cs, h1⟩, ss, h2⟩ := StreamNet.run_parts hr
  constructor
  · intro hm
    exact FullStream.run_not_refused h1 rfl (List.mem_filterMap.2 ⟨_, hm, rfl⟩)
  · intro hm
    exact FullStream.run_not_refused h2 rfl (List.mem_filterMap.2 ⟨_, hm, rfl⟩)

theorem traced (hL : L.Lawful) (hO : ServerOptions.Built L os) (h : Linkage L gc gs os gr sn S S' G n T) :
    StreamNet.Tracks (fun _ _ => True) sn n ∧ ClientRecord S (clientItems T) ∧ ServerRecord S' (serverItems T) ∧ Healthy G := by
  obtain ⟨as, hr⟩ := h.run
  rw [← h.client, ← h.server]
  exact StreamNet.traced (paired := fun _ _ => True) hL hO (tc := none) (ts := none) trivial hr h.calm h.net

theorem clientTls (h : Linkage L gc gs os gr sn S S' G n T) : sn.client.tls = none ∧ sn.server.tls = none := by
  obtain ⟨as, hr⟩ := h.run
  have key : ∀ {σ ε ev ι : Type} {M : Machine σ ε ev ι} {as : List (StreamAct ι)} {c c' : FullStream K σ} {U : List (FullItem ε ev ι)},
      c.run M as = some (c', U) → c.tls = none → c'.tls = none := by
    intro σ ε ev ι M as
    induction as with
    | nil => intro c c' U h ht; cases h; exact ht
    | cons a as ih =>
      intro c c' U h ht
      obtain ⟨c1, U1, U2, h1, h2, rfl⟩ := FullStream.run_cons h
      refine ih h2 ?_
      have hf := (FullStream.step_cases h1).fixed
      rw [ht] at hf
      cases h3 : c1.tls with
      | none => rfl
      | some t => rw [h3] at hf; exact hf.elim
  obtain ⟨⟨cs, h1⟩, ss, h2⟩ := StreamNet.run_parts hr
  exact ⟨key h1 rfl, key h2 rfl⟩

/-- A step of the stream of the client. -/
theorem clientStep (hL : L.Lawful) (hO : ServerOptions.Built L os) (h : Linkage L gc gs os gr sn S S' G n T) {act : SideAct ClientOp}
    {c' : FullStream K Client} {I : List (FullItem ClientError ClientEvent ClientOp)}
    (hst : sn.client.step (clientMachine L) (act.toStream sn.toClient) = some (c', I))
    (ha : act ≠ .user .next ∧ ∀ b, act ≠ .user (.enqueueInput b)) :
    ∃ n' U, Linkage L gc gs os gr ⟨c', sn.server, sn.toServer ++ streamWrote (streamPart I), act.rest sn.toClient⟩
        (S ++ streamPart I) S' (G ++ I.map .client) n' (T ++ U.map .client) ∧
      sn.client.state.trace L (clientOps (streamPart I)) = .ok (c'.state, U) := by
  obtain ⟨as, hr⟩ := h.run
  obtain ⟨e1, e2, e3⟩ := atClient_map_client I
  obtain ⟨h1, -⟩ := h.traced hL hO
  obtain ⟨cops, hct⟩ := (Net.run_linked h.net).client
  have hs : sn.step L (.client act) =
      some (⟨c', sn.server, sn.toServer ++ streamWrote (streamPart I), act.rest sn.toClient⟩, I.map .client) := by
    have hx : sn.step L (.client act) = sn.clientStep L act := by
      unfold StreamNet.step
      split <;> simp_all
    rw [hx]
    simp only [StreamNet.clientStep, hst]
  have hrun := StreamNet.run_snoc hr hs
  have hnr : .refused ∉ I := by
    obtain ⟨⟨cs, h1⟩, -⟩ := StreamNet.run_parts hrun
    intro hm
    exact FullStream.run_not_refused h1 rfl (List.mem_filterMap.2 ⟨.client .refused, by simp [hm], rfl⟩)
  obtain ⟨n', U, u1, u2, u3, -⟩ := h1.clientCalled (clientMachine_safe hL gc .default) ⟨_, _, hct⟩ hst ha hnr
  rw [h1.client, u2.client] at u3
  refine ⟨n', U, ⟨⟨_, hrun⟩, ?_, ?_, ?_⟩, u3⟩
  · rw [List.flatMap_append, e3]
    exact Net.run_join h.net u1
  · unfold atClient at e1 ⊢; rw [List.filterMap_append, e1, ← h.client]; rfl
  · unfold atServer at e2 ⊢; rw [List.filterMap_append, e2, ← h.server, List.append_nil]; rfl

/-- A step of the stream of the server. -/
theorem serverStep (hL : L.Lawful) (hO : ServerOptions.Built L os) (h : Linkage L gc gs os gr sn S S' G n T) {act : SideAct ServerOp}
    {c' : FullStream K Server} {I : List (FullItem ServerError ServerEvent ServerOp)}
    (hst : sn.server.step (serverMachine L) (act.toStream sn.toServer) = some (c', I))
    (ha : act ≠ .user .next ∧ ∀ b, act ≠ .user (.enqueueInput b)) :
    ∃ n' U, Linkage L gc gs os gr ⟨sn.client, c', act.rest sn.toServer, sn.toClient ++ streamWrote (streamPart I)⟩
        S (S' ++ streamPart I) (G ++ I.map .server) n' (T ++ U.map .server) ∧
      sn.server.state.trace L (serverOps (streamPart I)) = .ok (c'.state, U) := by
  obtain ⟨as, hr⟩ := h.run
  obtain ⟨e1, e2, e3⟩ := atServer_map_server I
  obtain ⟨h1, -⟩ := h.traced hL hO
  obtain ⟨cops, hct⟩ := (Net.run_linked h.net).server
  have hs : sn.step L (.server act) =
      some (⟨sn.client, c', act.rest sn.toServer, sn.toClient ++ streamWrote (streamPart I)⟩, I.map .server) := by
    have hx : sn.step L (.server act) = sn.serverStep L act := by
      unfold StreamNet.step
      split <;> simp_all
    rw [hx]
    simp only [StreamNet.serverStep, hst]
  have hrun := StreamNet.run_snoc hr hs
  have hnr : .refused ∉ I := by
    obtain ⟨-, cs, h1⟩ := StreamNet.run_parts hrun
    intro hm
    exact FullStream.run_not_refused h1 rfl (List.mem_filterMap.2 ⟨.server .refused, by simp [hm], rfl⟩)
  obtain ⟨n', U, u1, u2, u3, -⟩ := h1.serverCalled (serverMachine_safe hL gs hO gr) ⟨_, _, hct⟩ hst ha hnr
  rw [h1.server, u2.server] at u3
  refine ⟨n', U, ⟨⟨_, hrun⟩, ?_, ?_, ?_⟩, u3⟩
  · rw [List.flatMap_append, e3]
    exact Net.run_join h.net u1
  · unfold atClient at e2 ⊢; rw [List.filterMap_append, e2, ← h.client, List.append_nil]; rfl
  · unfold atServer at e1 ⊢; rw [List.filterMap_append, e1, ← h.server]; rfl

/-- Calls on the client. -/
theorem clientCalls (hL : L.Lawful) (hO : ServerOptions.Built L os) (h : Linkage L gc gs os gr sn S S' G n T)
    (hc : sn.client.ctl = .at .idle) {calls : List ClientOp} {s' : Client} {J : List CItem}
    (hj : sn.client.state.Calls L calls s' J) :
    ∃ n', Linkage L gc gs os gr { sn with client := { sn.client with state := s' } } (S ++ calls.map .user) S'
      (G ++ calls.map fun op => .client (.stream (.user op))) n' (T ++ J.map .client) := by
  obtain ⟨ht, rfl | ⟨op, rfl, ho⟩⟩ := hj
  · cases ht
    exact ⟨n, by simpa using h⟩
  · obtain ⟨h1, -⟩ := h.traced hL hO
    obtain ⟨cops, hct⟩ := (Net.run_linked h.net).client
    rw [h1.client] at hct
    obtain ⟨s'', hu⟩ := (clientMachine_safe hL gc .default).user op ⟨_, _, hct⟩
    obtain ⟨n', U, h2, h3⟩ := h.clientStep (act := .user op) (c' := { sn.client with state := s'' })
      (I := [.stream (.user op)]) hL hO (by simp [SideAct.toStream, FullStream.step, hc, hu])
      ⟨fun e => ho.1 (by cases e; rfl), fun b e => ho.2 b (by cases e; rfl)⟩
    have h4 : clientOps (streamPart [FullItem.stream (.user op)]) = [op] := rfl
    rw [h4, ht] at h3
    cases h3
    refine ⟨n', ?_⟩
    simpa [streamPart, FullItem.stream?, streamWrote, SideAct.rest] using h2

/-- Calls on the server. -/
theorem serverCalls (hL : L.Lawful) (hO : ServerOptions.Built L os) (h : Linkage L gc gs os gr sn S S' G n T)
    (hc : sn.server.ctl = .at .idle) {calls : List ServerOp} {s' : Server} {J : List SItem}
    (hj : sn.server.state.Calls L calls s' J) :
    ∃ n', Linkage L gc gs os gr { sn with server := { sn.server with state := s' } } S (S' ++ calls.map .user)
      (G ++ calls.map fun op => .server (.stream (.user op))) n' (T ++ J.map .server) := by
  obtain ⟨ht, rfl | ⟨op, rfl, ho⟩⟩ := hj
  · cases ht
    exact ⟨n, by simpa using h⟩
  · obtain ⟨h1, -⟩ := h.traced hL hO
    obtain ⟨cops, hct⟩ := (Net.run_linked h.net).server
    rw [h1.server] at hct
    obtain ⟨s'', hu⟩ := (serverMachine_safe hL gs hO gr).user op ⟨_, _, hct⟩
    obtain ⟨n', U, h2, h3⟩ := h.serverStep (act := .user op) (c' := { sn.server with state := s'' })
      (I := [.stream (.user op)]) hL hO (by simp [SideAct.toStream, FullStream.step, hc, hu])
      ⟨fun e => ho.1 (by cases e; rfl), fun b e => ho.2 b (by cases e; rfl)⟩
    have h4 : serverOps (streamPart [FullItem.stream (.user op)]) = [op] := rfl
    rw [h4, ht] at h3
    cases h3
    refine ⟨n', ?_⟩
    simpa [streamPart, FullItem.stream?, streamWrote, SideAct.rest] using h2

/-- The pending future of the client is dropped. -/
theorem clientDrop (hL : L.Lawful) (hO : ServerOptions.Built L os) (h : Linkage L gc gs os gr sn S S' G n T)
    {d : FullStream K Client} {D : List (FullItem ClientError ClientEvent ClientOp)} (hd : sn.client.dropFuture = (d, D)) :
    ∃ G' n', Linkage L gc gs os gr { sn with client := d } (S ++ streamPart D) S' G' n' T ∧ d.ctl = .at .idle ∧
      streamWrote (streamPart D) = [] := by
  obtain ⟨h1, -⟩ := h.traced hL hO
  obtain ⟨D', h2, h3⟩ := FullStream.dropFuture_idle (ε := ClientError) (ev := ClientEvent) (ι := ClientOp) h1.clientSound
  rw [hd] at h2
  cases h2
  obtain ⟨a1, a2, a3⟩ := h1.clientSound.alive
  rcases hc : sn.client.ctl with ctl | _ | _
  · have step : ctl ≠ .idle → sn.client.step (clientMachine L) (SideAct.drop.toStream sn.toClient) =
        some ({ sn.client with ctl := .at .idle }, [.stream .dropped]) := by
      intro hx
      cases ctl <;> first | exact (hx rfl).elim | exact (a1 hc).elim | simp [SideAct.toStream, FullStream.step, hc]
    by_cases hi : ctl = .idle
    · subst hi
      have : sn.client.dropFuture = (sn.client, ([] : List (FullItem ClientError ClientEvent ClientOp))) := by
        simp [FullStream.dropFuture, hc]
      rw [hd] at this
      simp only [Prod.mk.injEq] at this
      obtain ⟨e1, rfl⟩ := this
      refine ⟨G, n, ?_, rfl, rfl⟩
      rw [e1]
      simpa [streamPart] using h
    · have hD : D = [.stream .dropped] := by
        rcases h3 with rfl | rfl
        · have := congrArg Prod.snd hd
          cases ctl <;> simp [FullStream.dropFuture, hc] at this hi
          exact (a1 hc).elim
        · rfl
      subst hD
      obtain ⟨n', U, h4, h5⟩ := h.clientStep (act := .drop) hL hO (step hi) ⟨nofun, nofun⟩
      have h6 : clientOps (streamPart [(FullItem.stream .dropped : FullItem ClientError ClientEvent ClientOp)]) = [] := rfl
      rw [h6] at h5
      cases h5
      exact ⟨_, n', by simpa [streamPart, FullItem.stream?, streamWrote, SideAct.rest] using h4, rfl, rfl⟩
  · exact (a2 hc).elim
  · exact (a3 hc).elim

/-- The pending future of the server is dropped. -/
theorem serverDrop (hL : L.Lawful) (hO : ServerOptions.Built L os) (h : Linkage L gc gs os gr sn S S' G n T)
    {d : FullStream K Server} {D : List (FullItem ServerError ServerEvent ServerOp)} (hd : sn.server.dropFuture = (d, D)) :
    ∃ G' n', Linkage L gc gs os gr { sn with server := d } S (S' ++ streamPart D) G' n' T ∧ d.ctl = .at .idle ∧
      streamWrote (streamPart D) = [] := by
  obtain ⟨h1, -⟩ := h.traced hL hO
  obtain ⟨D', h2, h3⟩ := FullStream.dropFuture_idle (ε := ServerError) (ev := ServerEvent) (ι := ServerOp) h1.serverSound
  rw [hd] at h2
  cases h2
  obtain ⟨a1, a2, a3⟩ := h1.serverSound.alive
  rcases hc : sn.server.ctl with ctl | _ | _
  · have step : ctl ≠ .idle → sn.server.step (serverMachine L) (SideAct.drop.toStream sn.toServer) =
        some ({ sn.server with ctl := .at .idle }, [.stream .dropped]) := by
      intro hx
      cases ctl <;> first | exact (hx rfl).elim | exact (a1 hc).elim | simp [SideAct.toStream, FullStream.step, hc]
    by_cases hi : ctl = .idle
    · subst hi
      have : sn.server.dropFuture = (sn.server, ([] : List (FullItem ServerError ServerEvent ServerOp))) := by
        simp [FullStream.dropFuture, hc]
      rw [hd] at this
      simp only [Prod.mk.injEq] at this
      obtain ⟨e1, rfl⟩ := this
      refine ⟨G, n, ?_, rfl, rfl⟩
      rw [e1]
      simpa [streamPart] using h
    · have hD : D = [.stream .dropped] := by
        rcases h3 with rfl | rfl
        · have := congrArg Prod.snd hd
          cases ctl <;> simp [FullStream.dropFuture, hc] at this hi
          exact (a1 hc).elim
        · rfl
      subst hD
      obtain ⟨n', U, h4, h5⟩ := h.serverStep (act := .drop) hL hO (step hi) ⟨nofun, nofun⟩
      have h6 : serverOps (streamPart [(FullItem.stream .dropped : FullItem ServerError ServerEvent ServerOp)]) = [] := rfl
      rw [h6] at h5
      cases h5
      exact ⟨_, n', by simpa [streamPart, FullItem.stream?, streamWrote, SideAct.rest] using h4, rfl, rfl⟩
  · exact (a2 hc).elim
  · exact (a3 hc).elim

end Linkage

end ImapFlow
