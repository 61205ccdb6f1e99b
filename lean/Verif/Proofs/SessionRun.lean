import Verif.Proofs.SessionLink
import Verif.Proofs.ExampleClients
import Verif.Proofs.ExampleServers
import Verif.Props.C62

/-!
# Runs of two example programs that are connected to each other
-/

namespace ImapFlow

variable {K : Type} {L : Lib} {gc gs : HandleGenerator} {os : ServerOptions} {gr : Greeting}

/-! ## Steps of streams -/

namespace FullStream

variable {σ ε ev ι : Type}

theorem Advanced.idle {M : Machine σ ε ev ι} {c c' : FullStream K σ} {T : List (FullItem ε ev ι)}
    (h : Advanced M c c' T) {e : ev} (hr : nextResult T = some (.ok e)) : c'.ctl = .at .idle := by
  have hD : ∀ {b s s1} {D : List (StreamItem ε ev ι)}, Provides M b s s1 D → D = [] ∨ D = [.deliver b] := by
    rintro b s s1 D (⟨-, -, rfl⟩ | ⟨-, -, rfl⟩)
    · exact .inl rfl
    · exact .inr rfl
  cases h with
  | hung => simp [nextResult] at hr
  | broken => simp [nextResult] at hr
  | inputPanic => simp [nextResult] at hr
  | nextPanic h1 h2 => rcases hD h2 with rfl | rfl <;> simp [nextResult] at hr
  | returned h1 h2 h3 h4 h5 => rw [h5]
  | waits h1 h2 => rcases hD h2 with rfl | rfl <;> simp [nextResult] at hr
  | refused h1 h2 h3 h4 h5 => rw [h5]

/-- When `next` returned an event, the stream is not in use. -/
theorem Stepped.idle {M : Machine σ ε ev ι} {c c' : FullStream K σ} {T : List (FullItem ε ev ι)}
    (h : Stepped M c c' T) {e : ev} (hr : nextResult T = some (.ok e)) : c'.ctl = .at .idle := by
  cases h with
  | user => simp [nextResult] at hr
  | userPanic => simp [nextResult] at hr
  | callNext h1 h2 => exact h2.idle (by simpa [nextResult] using hr)
  | read h1 h2 h3 => exact h3.idle (by simpa [nextResult] using hr)
  | written h1 h2 h3 h4 => exact h4.idle (by simpa [nextResult] using hr)
  | wrote h1 h2 h3 h4 => rcases h4 with ⟨-, rfl, -⟩ | ⟨-, -, rfl, -⟩ <;> simp [nextResult] at hr
  | flush h1 h2 h3 => rcases h3 with ⟨-, rfl, -⟩ | ⟨-, rfl, -⟩ <;> simp [nextResult] at hr
  | ended h1 h2 =>
    rcases h2 with ⟨-, rfl, rfl⟩ | ⟨-, rfl, rfl⟩ | ⟨-, rfl, rfl⟩ | ⟨-, rfl, rfl⟩ | ⟨-, rfl, rfl⟩ <;>
      simp [nextResult] at hr
  | dropped => simp [nextResult] at hr

theorem Advanced.untouched {M : Machine σ ε ev ι} {c c' : FullStream K σ} {T : List (FullItem ε ev ι)}
    (h : Advanced M c c' T) : .stream .failed ∉ T ∧ (∀ b, .stream (.read b) ∉ T) ∧ ∀ b, .stream (.wrote b) ∉ T := by
  have hD : ∀ {b s s1} {D : List (StreamItem ε ev ι)}, Provides M b s s1 D → D = [] ∨ D = [.deliver b] := by
    rintro b s s1 D (⟨-, -, rfl⟩ | ⟨-, -, rfl⟩)
    · exact .inl rfl
    · exact .inr rfl
  cases h with
  | hung => simp
  | broken => simp
  | inputPanic => simp
  | nextPanic h1 h2 => rcases hD h2 with rfl | rfl <;> simp
  | @returned _ _ _ D _ _ r h1 h2 => rcases hD h2 with rfl | rfl <;> rcases r with (_ | _) | _ <;> simp [returns]
  | waits h1 h2 => rcases hD h2 with rfl | rfl <;> simp
  | refused h1 h2 => rcases hD h2 with rfl | rfl <;> simp

/-- The end of the socket and its failures are only seen if the network says so. -/
theorem step_fault {M : Machine σ ε ev ι} {c c' : FullStream K σ} {a : IoAct} {T : List (FullItem ε ev ι)}
    (h : c.step M a.toStream = some (c', T)) :
    (.stream .failed ∈ T → a = .fail) ∧ (.stream (.read []) ∈ T → a = .read []) ∧ (.stream (.wrote []) ∈ T → a = .write 0) := by
  cases a with
  | poll =>
    simp only [IoAct.toStream, step] at h
    split at h
    · cases h
      have := (c.advance_cases M).untouched
      simp [this.1, this.2.1, this.2.2]
    · cases h
  | fail =>
    simp only [IoAct.toStream, step] at h
    split at h <;> cases h <;> simp
  | read b =>
    have key : (completeRead M c b) = (c', T) → (.stream .failed ∈ T → IoAct.read b = .fail) ∧
        (.stream (.read []) ∈ T → IoAct.read b = .read []) ∧ (.stream (.wrote []) ∈ T → IoAct.read b = .write 0) := by
      intro h
      unfold completeRead at h
      by_cases hb : b = []
      · subst hb
        simp at h
        obtain ⟨-, rfl⟩ := h
        simp
      · have : b.length ≠ 0 := by simpa using hb
        simp only [this, if_false] at h
        cases h
        have := (FullStream.advance_cases M { c with readBuffer := c.readBuffer ++ b }).untouched
        simp [this.1, this.2.1, this.2.2, eq_comm]
    simp only [IoAct.toStream, step] at h
    split at h
    · exact key (Option.some.inj h)
    · exact key (Option.some.inj h)
    · cases h
  | write n =>
    simp only [IoAct.toStream, step] at h
    split at h
    · rename_i hn
      have h0 : c.writeBuffer.take n = [] → n = 0 := by
        intro hx
        rcases List.take_eq_nil_iff.1 hx with h1 | h1
        · exact h1
        · rw [h1] at hn; simpa using hn
      have hw : ∀ b, (FullItem.stream (.wrote []) : FullItem ε ev ι) = .stream (.wrote b) → b = [] := by
        intro b hb
        injection hb with hb
        injection hb with hb
        exact hb.symm
      split at h
      · have h := Option.some.inj h
        unfold completeWrite at h
        dsimp only at h
        split at h
        · cases h; simp_all
        · split at h
          · cases h
            have := (FullStream.advance_cases M { c with writeBuffer := c.writeBuffer.drop n }).untouched
            simp only [List.mem_cons, this.1, this.2.1, this.2.2, or_false]
            refine ⟨nofun, nofun, fun hx => ?_⟩
            cases (h0 (hw _ hx))
            rfl
          · cases h
            refine ⟨by simp, by simp, fun hx => ?_⟩
            rcases List.mem_cons.1 hx with hx | hx
            · cases (h0 (hw _ hx))
              rfl
            · simp at hx
      · have h := Option.some.inj h
        unfold completeFlush at h
        dsimp only at h
        split at h
        · cases h; simp_all
        · split at h
          · cases h
            refine ⟨by simp, by simp, fun hx => ?_⟩
            rcases List.mem_cons.1 hx with hx | hx
            · cases (h0 (hw _ hx))
              rfl
            · simp at hx
          · cases h
            refine ⟨by simp, by simp, fun hx => ?_⟩
            rcases List.mem_cons.1 hx with hx | hx
            · cases (h0 (hw _ hx))
              rfl
            · simp at hx
      · cases h
    · cases h

end FullStream

/-! ## One step of one program -/

/-- The action of the network on the stream of the client. -/
def SocketAct.toSide {ι : Type} : SocketAct → SideAct ι
  | .poll => .callNext
  | .read n => .read n
  | .write n => .write n
  | .fail => .fail

theorem SocketAct.toSide_toStream {ι : Type} (act : SocketAct) (wire : Bytes) :
    (act.toSide : SideAct ι).toStream wire = (act.toIo wire).toStream := by
  cases act <;> rfl

theorem SocketAct.toSide_rest {ι : Type} (act : SocketAct) (wire : Bytes) :
    (act.toSide : SideAct ι).rest wire = act.rest wire := by
  cases act <;> rfl

/-- `next` failed. -/
def NextFailed {σ ε ev ι : Type} (M : Machine σ ε ev ι) (c : FullStream K σ) (a : IoAct) (items : List (ProgramItem ε ev ι)) : Prop :=
  ∃ c' J e, c.step M a.toStream = some (c', J) ∧ nextResult J = some (.error e) ∧ items = J.map .stream ++ [.nextFailed e]

namespace Linkage

variable {σ τ : Type} {P : Program σ Client ClientEvent ClientOp} {P' : Program τ Server ServerEvent ServerOp}
  {I : σ → List CItem → Prop} {Q : List CItem → Prop} {J : τ → List SItem → Prop} {Q' : List SItem → Prop}
  {c : FullStream K Client} {d : FullStream K Server} {toServer toClient : Bytes}
  {A : List (ProgramItem ClientError ClientEvent ClientOp)} {B : List (ProgramItem ServerError ServerEvent ServerOp)}
  {G : List StreamNetItem} {n : Net} {T : List NItem}

/-- A step of the client on its connection. -/
theorem clientIo (hL : L.Lawful) (hO : ServerOptions.Built L os) (hk : ClientKept L gc P I Q)
    (h : Linkage L gc gs os gr ⟨c, d, toServer, toClient⟩ (programStream A) (programStream B) G n T) {v : σ} (hI : I v (clientItems T))
    {act : SocketAct} {coin : Bool} {x : Running K σ Client} {items : List (ProgramItem ClientError ClientEvent ClientOp)}
    (hst : P.step (clientMachine L) (.running v c) (.io (act.toIo toClient) coin) = some (x, items)) :
    ∃ c' G' n' U, Linkage L gc gs os gr ⟨c', d, toServer ++ streamWrote (programStream items), act.rest toClient⟩
        (programStream (A ++ items)) (programStream B) G' n' (T ++ U.map .client) ∧
      match x with
      | .running v' e => (e = c' ∧ I v' (clientItems T ++ U)) ∧ (programCalls items = [] →
          ∃ D, c.step (clientMachine L) (act.toIo toClient).toStream = some (e, D) ∧ programStream items = streamPart D)
      | .over => Q (clientItems T ++ U)
      | .dead => I v (clientItems T ++ U) ∧ NextFailed (clientMachine L) c (act.toIo toClient) items := by
  obtain ⟨c', D, h1, h2⟩ := Program.step_io hst
  obtain ⟨cops, hct⟩ := (Net.run_linked h.net).client
  obtain ⟨ht0, -⟩ := h.traced hL hO
  rw [show n.client = c.state from ht0.client] at hct
  have hsafe := clientMachine_safe hL gc .default
  obtain ⟨n', U, k1, k2⟩ := h.clientStep (act := act.toSide) hL hO (by rw [act.toSide_toStream]; exact h1)
    (by cases act <;> exact ⟨nofun, nofun⟩)
  rw [act.toSide_rest] at k1
  obtain ⟨U', h3, h4⟩ := client_called hsafe ⟨_, _, hct⟩ (by cases act <;> nofun) h1
  rw [k2] at h3
  cases h3
  have ht' := Client.trace_join hct k2
  have hs := (FullStream.step_cases h1).alive hsafe ⟨_, _, hct⟩
  rcases h2 with ⟨hd, -, -⟩ | ⟨hn, rfl, rfl⟩ | ⟨r, hn, rfl, rfl⟩
  · exact (hs.1 hd).elim
  · rcases h4 with ⟨h4, h5, -⟩ | ⟨pre, i, e, rfl, h5, h6, h7⟩
    · refine ⟨c', G ++ D.map .client, n', U, ?_, ⟨rfl, hk.silents (B := []) hI h4 (by simpa using ht')⟩,
        fun _ => ⟨D, h1, programStream_items D⟩⟩
      rw [programStream_append, programStream_items]
      exact k1
    · obtain ⟨-, -, -, h8⟩ := h7
      rw [hn] at h8; cases h8
  · rcases h4 with ⟨h4, h5, h6⟩ | ⟨pre, i, e, rfl, h5, h6, h7⟩
    · cases r with
      | ok e => exact (h6 e hn).elim
      | error e =>
        refine ⟨c', G ++ D.map .client, n', U, ?_, hk.silents (B := []) hI h4 (by simpa using ht'), c', D, e, h1, hn, rfl⟩
        have e0 : programStream (D.map .stream ++ (P.resume v c' coin (.error e : Except (StreamError ClientError) ClientEvent)).2) =
            streamPart D := by
          rw [programStream_append, programStream_items]
          exact List.append_nil _
        rw [programStream_append A, e0]
        exact k1
    · obtain ⟨-, -, -, h8⟩ := h7
      rw [hn] at h8
      cases h8
      rw [← List.append_assoc] at ht'
      obtain ⟨v', s', calls, flow, J', h9, h10, h11, h12⟩ := hk.event coin (hk.silents (B := [i]) hI h5 ht') h6 ht'
      have hT : P.resume v c' coin (.ok e : Except (StreamError ClientError) ClientEvent) = (if flow = .continue then
          .running v' { c' with state := s' } else .over, calls.map fun op => .stream (.stream (.user op))) := by
        simp only [Program.resume, h9]
        cases flow <;> rfl
      rw [hT]
      obtain ⟨n2, k3⟩ := k1.clientCalls hL hO ((FullStream.step_cases h1).idle hn) h10
      refine ⟨{ c' with state := s' }, G ++ D.map .client ++ calls.map fun op => .client (.stream (.user op)), n2, pre ++ [i] ++ J', ?_, ?_⟩
      · have e0 : programStream (D.map .stream ++ calls.map fun op =>
            (.stream (.stream (.user op)) : ProgramItem ClientError ClientEvent ClientOp)) = streamPart D ++ calls.map .user := by
          rw [programStream_append, programStream_items, programStream_calls]
        dsimp only
        rw [programStream_append A, e0, List.map_append, ← List.append_assoc, ← List.append_assoc]
        have e1 : streamWrote (streamPart D ++ calls.map .user) = streamWrote (streamPart D) := by
          unfold streamWrote
          rw [List.flatMap_append]
          simp [List.flatMap_map]
        rw [e1]
        exact k3
      · rw [← List.append_assoc, ← List.append_assoc, ← List.append_cons]
        cases flow with
        | «continue» =>
          refine ⟨⟨rfl, h11 rfl⟩, fun hcalls => ⟨D, ?_, ?_⟩⟩
          · have : calls = [] := by
              rw [programCalls_append, programCalls_calls] at hcalls
              exact (List.append_eq_nil_iff.1 hcalls).2
            subst this
            have h13 := h10.trace
            cases h13
            exact h1
          · rw [programCalls_append, programCalls_calls] at hcalls
            have : calls = [] := (List.append_eq_nil_iff.1 hcalls).2
            subst this
            simpa using programStream_items D
        | abort => exact h12 rfl

/-- The user of the client enters a line. -/
theorem clientLine (hL : L.Lawful) (hO : ServerOptions.Built L os) (hk : ClientKept L gc P I Q)
    (h : Linkage L gc gs os gr ⟨c, d, toServer, toClient⟩ (programStream A) (programStream B) G n T) {v : σ} (hI : I v (clientItems T))
    {text : Bytes} {x : Running K σ Client} {items : List (ProgramItem ClientError ClientEvent ClientOp)}
    (hst : P.step (clientMachine L) (.running v c) (.line text) = some (x, items)) :
    ∃ v' c' G' n' U, Linkage L gc gs os gr ⟨c', d, toServer ++ streamWrote (programStream items), toClient⟩
        (programStream (A ++ items)) (programStream B) G' n' (T ++ U.map .client) ∧
      x = .running v' c' ∧ I v' (clientItems T ++ U) := by
  obtain ⟨e, D, r, h0, h1, h2⟩ := Program.step_line hst
  obtain ⟨cops, hct⟩ := (Net.run_linked h.net).client
  obtain ⟨ht0, -⟩ := h.traced hL hO
  rw [show n.client = c.state from ht0.client] at hct
  obtain ⟨h3, h4⟩ := FullStream.dropFuture_state h0
  rw [h3] at h1
  obtain ⟨v', s', calls, J, rfl, h5, h6⟩ := hk.line hI hct h1
  rcases h2 with ⟨p, hp, -, -⟩ | ⟨_, _, _, hp, rfl, rfl⟩
  · cases hp
  · cases hp
    obtain ⟨G1, n1, k1, k2, k3⟩ := h.clientDrop hL hO (by exact h0)
    obtain ⟨n2, k4⟩ := k1.clientCalls hL hO k2 (by show e.state.Calls L calls s' J; rw [h3]; exact h5)
    refine ⟨v', { e with state := s' }, G1 ++ calls.map fun op => .client (.stream (.user op)), n2, J, ?_, rfl, h6⟩
    have e0 : programStream (D.map .stream ++ .line text :: calls.map fun op =>
        (.stream (.stream (.user op)) : ProgramItem ClientError ClientEvent ClientOp)) = streamPart D ++ calls.map .user := by
      rw [programStream_append, programStream_items, programStream_line, programStream_calls]
    rw [programStream_append A, e0, ← List.append_assoc]
    have e1 : streamWrote (streamPart D ++ calls.map .user) = [] := by
      unfold streamWrote at k3 ⊢
      rw [List.flatMap_append, k3]
      simp [List.flatMap_map]
    rw [e1, List.append_nil]
    exact k4

/-- A step of the server on its connection. -/
theorem serverIo (hL : L.Lawful) (hO : ServerOptions.Built L os) (hk : ServerKept L gs os gr P' J Q')
    (h : Linkage L gc gs os gr ⟨c, d, toServer, toClient⟩ (programStream A) (programStream B) G n T) {v : τ} (hI : J v (serverItems T))
    {act : SocketAct} {coin : Bool} {x : Running K τ Server} {items : List (ProgramItem ServerError ServerEvent ServerOp)}
    (hst : P'.step (serverMachine L) (.running v d) (.io (act.toIo toServer) coin) = some (x, items)) :
    ∃ c' G' n' U, Linkage L gc gs os gr ⟨c, c', act.rest toServer, toClient ++ streamWrote (programStream items)⟩
        (programStream A) (programStream (B ++ items)) G' n' (T ++ U.map .server) ∧
      (match x with
      | .running v' e => (e = c' ∧ J v' (serverItems T ++ U)) ∧ (programCalls items = [] →
          ∃ D, d.step (serverMachine L) (act.toIo toServer).toStream = some (e, D) ∧ programStream items = streamPart D)
      | .over => Q' (serverItems T ++ U)
      | .dead => J v (serverItems T ++ U) ∧ NextFailed (serverMachine L) d (act.toIo toServer) items) ∧
      ∃ sn1 S1 S1' G1 n1 U1 U2, U = U1 ++ U2 ∧ Linkage (K := K) L gc gs os gr sn1 S1 S1' G1 n1 (T ++ U1.map .server) ∧
        U1.filterMap SItem.op? = [] ∧ U2.filterMap SItem.event? = [] := by
  obtain ⟨c', D, h1, h2⟩ := Program.step_io hst
  obtain ⟨cops, hct⟩ := (Net.run_linked h.net).server
  obtain ⟨ht0, -⟩ := h.traced hL hO
  rw [show n.server = d.state from ht0.server] at hct
  have hsafe := serverMachine_safe hL gs hO gr
  obtain ⟨n', U, k1, k2⟩ := h.serverStep (act := act.toSide) hL hO (by rw [act.toSide_toStream]; exact h1)
    (by cases act <;> exact ⟨nofun, nofun⟩)
  rw [act.toSide_rest] at k1
  obtain ⟨U', h3, h4⟩ := server_called hsafe ⟨_, _, hct⟩ (by cases act <;> nofun) h1
  rw [k2] at h3
  cases h3
  have ht' := Server.trace_join hct k2
  have hs := (FullStream.step_cases h1).alive hsafe ⟨_, _, hct⟩
  rcases h2 with ⟨hd, -, -⟩ | ⟨hn, rfl, rfl⟩ | ⟨r, hn, rfl, rfl⟩
  · exact (hs.1 hd).elim
  · rcases h4 with ⟨h4, h5, -⟩ | ⟨pre, i, e, rfl, h5, h6, h7⟩
    · refine ⟨c', G ++ D.map .server, n', U, ?_, ⟨⟨rfl, hk.silents (B := []) hI h4 (by simpa using ht')⟩,
          fun _ => ⟨D, h1, programStream_items D⟩⟩, _, _, _, _, _, U, [], (List.append_nil _).symm, k1, (SItem.silent_items h4).2, rfl⟩
      rw [programStream_append, programStream_items]
      exact k1
    · obtain ⟨-, -, -, h8⟩ := h7
      rw [hn] at h8; cases h8
  · rcases h4 with ⟨h4, h5, h6⟩ | ⟨pre, i, e, rfl, h5, h6, h7⟩
    · cases r with
      | ok e => exact (h6 e hn).elim
      | error e =>
        refine ⟨c', G ++ D.map .server, n', U, ?_, ⟨hk.silents (B := []) hI h4 (by simpa using ht'), c', D, e, h1, hn, rfl⟩,
          _, _, _, _, _, U, [], (List.append_nil _).symm, k1, (SItem.silent_items h4).2, rfl⟩
        have e0 : programStream (D.map .stream ++ (P'.resume v c' coin (.error e : Except (StreamError ServerError) ServerEvent)).2) =
            streamPart D := by
          rw [programStream_append, programStream_items]
          exact List.append_nil _
        rw [programStream_append B, e0]
        exact k1
    · obtain ⟨-, -, -, h8⟩ := h7
      rw [hn] at h8
      cases h8
      rw [← List.append_assoc] at ht'
      obtain ⟨v', s', calls, flow, J', h9, h10, h11, h12⟩ := hk.event coin (hk.silents (B := [i]) hI h5 ht') h6 ht'
      have hT : P'.resume v c' coin (.ok e : Except (StreamError ServerError) ServerEvent) = (if flow = .continue then
          .running v' { c' with state := s' } else .over, calls.map fun op => .stream (.stream (.user op))) := by
        simp only [Program.resume, h9]
        cases flow <;> rfl
      rw [hT]
      obtain ⟨n2, k3⟩ := k1.serverCalls hL hO ((FullStream.step_cases h1).idle hn) h10
      refine ⟨{ c' with state := s' }, G ++ D.map .server ++ calls.map fun op => .server (.stream (.user op)), n2, pre ++ [i] ++ J', ?_, ?_,
        _, _, _, _, _, pre ++ [i], J', rfl, k1, (SItem.event_items h5 h6).2, h10.items.1⟩
      · have e0 : programStream (D.map .stream ++ calls.map fun op =>
            (.stream (.stream (.user op)) : ProgramItem ServerError ServerEvent ServerOp)) = streamPart D ++ calls.map .user := by
          rw [programStream_append, programStream_items, programStream_calls]
        dsimp only
        rw [programStream_append B, e0, List.map_append, ← List.append_assoc, ← List.append_assoc]
        have e1 : streamWrote (streamPart D ++ calls.map .user) = streamWrote (streamPart D) := by
          unfold streamWrote
          rw [List.flatMap_append]
          simp [List.flatMap_map]
        rw [e1]
        exact k3
      · rw [← List.append_assoc, ← List.append_assoc, ← List.append_cons]
        cases flow with
        | «continue» =>
          refine ⟨⟨rfl, h11 rfl⟩, fun hcalls => ⟨D, ?_, ?_⟩⟩
          · have : calls = [] := by
              rw [programCalls_append, programCalls_calls] at hcalls
              exact (List.append_eq_nil_iff.1 hcalls).2
            subst this
            have h13 := h10.trace
            cases h13
            exact h1
          · rw [programCalls_append, programCalls_calls] at hcalls
            have : calls = [] := (List.append_eq_nil_iff.1 hcalls).2
            subst this
            simpa using programStream_items D
        | abort => exact h12 rfl

/-- The user of the server enters a line. -/
theorem serverLine (hL : L.Lawful) (hO : ServerOptions.Built L os) (hk : ServerKept L gs os gr P' J Q')
    (h : Linkage L gc gs os gr ⟨c, d, toServer, toClient⟩ (programStream A) (programStream B) G n T) {v : τ} (hI : J v (serverItems T))
    {text : Bytes} {x : Running K τ Server} {items : List (ProgramItem ServerError ServerEvent ServerOp)}
    (hst : P'.step (serverMachine L) (.running v d) (.line text) = some (x, items)) :
    ∃ v' c' G' n' U, Linkage L gc gs os gr ⟨c, c', toServer, toClient ++ streamWrote (programStream items)⟩
        (programStream A) (programStream (B ++ items)) G' n' (T ++ U.map .server) ∧
      x = .running v' c' ∧ J v' (serverItems T ++ U) ∧ U.filterMap SItem.event? = [] := by
  obtain ⟨e, D, r, h0, h1, h2⟩ := Program.step_line hst
  obtain ⟨cops, hct⟩ := (Net.run_linked h.net).server
  obtain ⟨ht0, -⟩ := h.traced hL hO
  rw [show n.server = d.state from ht0.server] at hct
  obtain ⟨h3, h4⟩ := FullStream.dropFuture_state h0
  rw [h3] at h1
  obtain ⟨v', s', calls, J1, rfl, h5, h6⟩ := hk.line hI hct h1
  rcases h2 with ⟨p, hp, -, -⟩ | ⟨_, _, _, hp, rfl, rfl⟩
  · cases hp
  · cases hp
    obtain ⟨G1, n1, k1, k2, k3⟩ := h.serverDrop hL hO (by exact h0)
    obtain ⟨n2, k4⟩ := k1.serverCalls hL hO k2 (by show e.state.Calls L calls s' J1; rw [h3]; exact h5)
    refine ⟨v', { e with state := s' }, G1 ++ calls.map fun op => .server (.stream (.user op)), n2, J1, ?_, rfl, h6, h5.items.1⟩
    have e0 : programStream (D.map .stream ++ .line text :: calls.map fun op =>
        (.stream (.stream (.user op)) : ProgramItem ServerError ServerEvent ServerOp)) = streamPart D ++ calls.map .user := by
      rw [programStream_append, programStream_items, programStream_line, programStream_calls]
    rw [programStream_append B, e0, ← List.append_assoc]
    have e1 : streamWrote (streamPart D ++ calls.map .user) = [] := by
      unfold streamWrote at k3 ⊢
      rw [List.flatMap_append, k3]
      simp [List.flatMap_map]
    rw [e1, List.append_nil]
    exact k4

end Linkage

end ImapFlow
