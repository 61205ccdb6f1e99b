import Verif.Proofs.SessionRun
import Verif.Props.C63

/-!
# Two example programs that suit each other understand each other
-/

namespace ImapFlow

variable {K : Type} {L : Lib} {gc gs : HandleGenerator} {os : ServerOptions} {gr : Greeting}

section
variable {σ ε ev ι : Type}

theorem FullStream.Advanced.whole {M : Machine σ ε ev ι} {c c' : FullStream K σ} {T : List (FullItem ε ev ι)}
    (h : Advanced M c c' T) (ht : c.tls = none) : .broken ∉ T := by
  have hD : ∀ {b s s1} {D : List (StreamItem ε ev ι)}, Provides M b s s1 D → D = [] ∨ D = [.deliver b] := by
    rintro b s s1 D (⟨-, -, rfl⟩ | ⟨-, -, rfl⟩)
    · exact .inl rfl
    · exact .inr rfl
  cases h with
  | hung h1 => rw [ht] at h1; cases h1
  | broken h1 => rw [ht] at h1; cases h1
  | inputPanic => simp
  | nextPanic h1 h2 => rcases hD h2 with rfl | rfl <;> simp
  | @returned _ _ _ D _ _ r h1 h2 => rcases hD h2 with rfl | rfl <;> rcases r with (_ | _) | _ <;> simp [returns]
  | waits h1 h2 => rcases hD h2 with rfl | rfl <;> simp
  | refused h1 h2 => rcases hD h2 with rfl | rfl <;> simp

theorem FullStream.Stepped.whole {M : Machine σ ε ev ι} {c c' : FullStream K σ} {T : List (FullItem ε ev ι)}
    (h : Stepped M c c' T) (ht : c.tls = none) : .broken ∉ T := by
  cases h with
  | user => simp
  | userPanic => simp
  | callNext h1 h2 => simpa using h2.whole ht
  | read h1 h2 h3 => simpa using h3.whole ht
  | written h1 h2 h3 h4 => simpa using h4.whole ht
  | wrote h1 h2 h3 h4 => rcases h4 with ⟨-, rfl, -⟩ | ⟨-, -, rfl, -⟩ <;> simp
  | flush h1 h2 h3 => rcases h3 with ⟨-, rfl, -⟩ | ⟨-, rfl, -⟩ <;> simp
  | ended h1 h2 =>
    rcases h2 with ⟨-, rfl, rfl⟩ | ⟨-, rfl, rfl⟩ | ⟨-, rfl, rfl⟩ | ⟨-, rfl, rfl⟩ | ⟨-, rfl, rfl⟩ <;> simp
  | dropped => simp

/-- As long as the other program runs, `next` can only fail with an error of the protocol. -/
theorem NextFailed.state {M : Machine σ ε ev ι} {c : FullStream K σ} {act : SocketAct} {wire : Bytes}
    {items : List (ProgramItem ε ev ι)} (h : NextFailed M c (act.toIo wire) items) (ht : c.tls = none)
    (hp : act.possible wire true = true) : ∃ e, .returned (.error (.state e)) ∈ programStream items := by
  obtain ⟨c', J, e, h1, h2, rfl⟩ := h
  have ho : FullStream.ErrorReason J e := (FullStream.step_cases h1).outcome h2
  obtain ⟨f1, f2, f3⟩ := FullStream.step_fault h1
  have hnr : .refused ∉ J := by
    have : c.run M [(act.toIo wire).toStream] = some (c', J ++ []) := by simp [FullStream.run, h1]
    have := FullStream.run_not_refused this ht
    simpa using this
  have hio : .stream .failed ∉ J := by
    intro hm
    have := f1 hm
    cases act <;> simp [SocketAct.toIo, SocketAct.possible] at this hp
  cases e with
  | closed =>
    rcases ho with ho | ho
    · have := f2 ho
      cases act <;> simp [SocketAct.toIo, SocketAct.possible] at this hp
      rcases this with rfl | rfl
      · exact absurd hp.1 (by simp)
      · exact (hp.2 rfl).elim
    · have := f3 ho
      cases act <;> simp [SocketAct.toIo, SocketAct.possible] at this hp
      omega
  | io => rcases ho with ho | ho <;> contradiction
  | tls => exact ((FullStream.step_cases h1).whole ht ho).elim
  | state e =>
    refine ⟨e, ?_⟩
    rw [programStream_append, programStream_items]
    refine List.mem_append_left _ ?_
    unfold nextResult at h2
    obtain ⟨a, ha, h3⟩ := List.exists_of_findSome?_eq_some h2
    rcases a with i | _ | _ | _ <;> try (cases h3; done)
    cases i with
    | returned r =>
      simp at h3
      subst h3
      exact List.mem_filterMap.2 ⟨_, ha, rfl⟩
    | _ => simp at h3

end

/-! ## Programs that suit each other -/

section
variable {σ τ : Type}

/-- The programs have invariants, and what they say is understood. -/
structure Fitting (L : Lib) (gc gs : HandleGenerator) (os : ServerOptions) (gr : Greeting)
    (P : Program σ Client ClientEvent ClientOp) (P' : Program τ Server ServerEvent ServerOp)
    (I : σ → List CItem → Prop) (Q : List CItem → Prop) (J : τ → List SItem → Prop) (ok : ServerEvent → Prop) : Prop where
  lawful : L.Lawful
  built : ServerOptions.Built L os
  size : 0 < os.maxCommandSize
  client : ClientKept L gc P I Q
  server : ServerKept L gs os gr P' J (fun _ => False)
  fair : ∀ {v A}, I v A → FairClient L os A
  ended : ∀ {A}, Q A → FairClient L os A
  said : ∀ {v A}, I v A → ∀ e ∈ (ClientView.of A).said, ok e
  saidEnded : ∀ {A}, Q A → ∀ e ∈ (ClientView.of A).said, ok e
  orderly : ∀ {w B}, J w B → OrderlyServer B
  clear : ∀ {w B}, J w B → (∀ e ∈ serverHeard B, ok e) → ClearServer L .default os gr B

variable {P : Program σ Client ClientEvent ClientOp} {P' : Program τ Server ServerEvent ServerOp}
  {I : σ → List CItem → Prop} {Q : List CItem → Prop} {J : τ → List SItem → Prop} {ok : ServerEvent → Prop}
  {s s' : Session K σ τ} {R R' : List SessionItem}

/-- Both programs run, and this is what is known about them. -/
structure Live (L : Lib) (gc gs : HandleGenerator) (os : ServerOptions) (gr : Greeting) (I : σ → List CItem → Prop)
    (J : τ → List SItem → Prop) (s : Session K σ τ) (R : List SessionItem) (v : σ) (c : FullStream K Client) (w : τ)
    (d : FullStream K Server) (G : List StreamNetItem) (n : Net) (T : List NItem) : Prop where
  client : s.client = .running v c
  server : s.server = .running w d
  link : Linkage L gc gs os gr ⟨c, d, s.toServer, s.toClient⟩ (programStream (sessionClient R)) (programStream (sessionServer R)) G n T
  inv : I v (clientItems T)
  inv' : J w (serverItems T)
  clear : ClearServer L .default os gr (serverItems T)

/-- The client has ended, and this is what is known. -/
structure Ended (L : Lib) (gc gs : HandleGenerator) (os : ServerOptions) (gr : Greeting) (Q : List CItem → Prop)
    (J : τ → List SItem → Prop) (s : Session K σ τ) (R : List SessionItem) (c : FullStream K Client) (w : τ)
    (d : FullStream K Server) (G : List StreamNetItem) (n : Net) (T : List NItem) : Prop where
  over : s.client = .over
  server : s.server = .running w d ∨ s.server = .dead
  link : Linkage L gc gs os gr ⟨c, d, s.toServer, s.toClient⟩ (programStream (sessionClient R)) (programStream (sessionServer R)) G n T
  inv : Q (clientItems T)
  inv' : J w (serverItems T)
  clear : ClearServer L .default os gr (serverItems T)

/-- What the server heard was said by the client. -/
theorem Linkage.heard {sn : StreamNet K} {S : List (StreamItem ClientError ClientEvent ClientOp)}
    {S' : List (StreamItem ServerError ServerEvent ServerOp)} {G : List StreamNetItem} {n : Net} {T : List NItem}
    (h : Linkage L gc gs os gr sn S S' G n T) (hL : L.Lawful) (hO : ServerOptions.Built L os) (hmax : 0 < os.maxCommandSize)
    (hC : ClearServer L .default os gr (serverItems T)) (hF : FairClient L os (clientItems T))
    (hP : OrderlyServer (serverItems T)) : ∀ e ∈ serverHeard (serverItems T), e ∈ (ClientView.of (clientItems T)).said := by
  have hrt := Net.Linked.understood hL hO hmax h.net hC hF hP
  obtain ⟨D, fl, ht⟩ := (Net.run_linked h.net).together hL hO hrt hmax hF hP (P := T) (Q := []) (by simp)
  intro e he
  rw [ht.core.said]
  exact List.mem_append_left _ he

/-- There are no errors of the protocol. -/
theorem Linkage.expected {sn : StreamNet K} {S : List (StreamItem ClientError ClientEvent ClientOp)}
    {S' : List (StreamItem ServerError ServerEvent ServerOp)} {G : List StreamNetItem} {n : Net} {T : List NItem}
    (h : Linkage L gc gs os gr sn S S' G n T) (hL : L.Lawful) (hO : ServerOptions.Built L os) (hmax : 0 < os.maxCommandSize)
    (hC : ClearServer L .default os gr (serverItems T)) (hF : FairClient L os (clientItems T))
    (hP : OrderlyServer (serverItems T)) :
    (∀ e, .returned (.error (.state e)) ∉ S) ∧ ∀ e, .returned (.error (.state e)) ∉ S' := by
  have hrt := Net.Linked.understood hL hO hmax h.net hC hF hP
  obtain ⟨as, hr⟩ := h.run
  obtain ⟨-, -, h1, h2⟩ := C62_expected (paired := fun _ _ => True) hL hO hmax (tc := none) (ts := none) trivial hr h.calm h.net hrt hF hP
  rw [h.client] at h1
  rw [h.server] at h2
  exact ⟨h1, h2⟩

theorem sessionClient_append (R R' : List SessionItem) : sessionClient (R ++ R') = sessionClient R ++ sessionClient R' := by
  simp [sessionClient]

theorem sessionServer_append (R R' : List SessionItem) : sessionServer (R ++ R') = sessionServer R ++ sessionServer R' := by
  simp [sessionServer]

theorem sessionClient_client (T : List (ProgramItem ClientError ClientEvent ClientOp)) :
    sessionClient (T.map .client) = T ∧ sessionServer (T.map .client) = [] := by
  constructor
  · unfold sessionClient; rw [List.filterMap_map]; exact List.filterMap_some
  · unfold sessionServer; rw [List.filterMap_map, List.filterMap_eq_nil_iff]; intro _ _; rfl

theorem sessionServer_server (T : List (ProgramItem ServerError ServerEvent ServerOp)) :
    sessionServer (T.map .server) = T ∧ sessionClient (T.map .server) = [] := by
  constructor
  · unfold sessionServer; rw [List.filterMap_map]; exact List.filterMap_some
  · unfold sessionClient; rw [List.filterMap_map, List.filterMap_eq_nil_iff]; intro _ _; rfl

theorem serverHeard_quiet {U : List SItem} (h : U.filterMap SItem.event? = []) : serverHeard U = [] := by
  unfold serverHeard
  rw [List.filterMap_eq_nil_iff] at h ⊢
  intro i hi
  have := h i hi
  cases i <;> first | rfl | cases this

theorem automatic_of_op {U : List SItem} (h : U.filterMap SItem.op? = []) : ∀ i ∈ U, i.Automatic := by
  rw [List.filterMap_eq_nil_iff] at h
  intro i hi
  have := h i hi
  cases i <;> first | trivial | cases this

/-- A program that runs reports what happened. -/
theorem Session.clientDoes_cases {act : ProgramAct} {rest : Bytes} (h : s.clientDoes L P act rest = some (s', R')) :
    ∃ x items, P.step (clientMachine L) s.client act = some (x, items) ∧ R' = items.map .client ∧
      s' = { s with client := x, toClient := rest, toServer := s.toServer ++ streamWrote (programStream items) } := by
  unfold Session.clientDoes at h
  split at h
  · cases h
  · rename_i x items hx
    cases h
    exact ⟨x, items, hx, rfl, rfl⟩

theorem Session.serverDoes_cases {act : ProgramAct} {rest : Bytes} (h : s.serverDoes L P' act rest = some (s', R')) :
    ∃ x items, P'.step (serverMachine L) s.server act = some (x, items) ∧ R' = items.map .server ∧
      s' = { s with server := x, toServer := rest, toClient := s.toClient ++ streamWrote (programStream items) } := by
  unfold Session.serverDoes at h
  split at h
  · cases h
  · rename_i x items hx
    cases h
    exact ⟨x, items, hx, rfl, rfl⟩

/-- The server after a step: what it says is still understood. -/
theorem Fitting.clear_step (hf : Fitting L gc gs os gr P P' I Q J ok) {sn1 : StreamNet K}
    {S1 : List (StreamItem ClientError ClientEvent ClientOp)} {S1' : List (StreamItem ServerError ServerEvent ServerOp)}
    {G1 : List StreamNetItem} {n1 : Net} {T : List NItem} {U1 U2 : List SItem} {w : τ}
    (hl : Linkage L gc gs os gr sn1 S1 S1' G1 n1 (T ++ U1.map .server)) (hF : FairClient L os (clientItems T))
    (hS : ∀ e ∈ (ClientView.of (clientItems T)).said, ok e)
    (hC : ClearServer L .default os gr (serverItems T)) (h1 : U1.filterMap SItem.op? = []) (h2 : U2.filterMap SItem.event? = [])
    (hJ : J w (serverItems T ++ (U1 ++ U2))) : ClearServer L .default os gr (serverItems T ++ (U1 ++ U2)) := by
  have hk := hf.orderly hJ
  rw [← List.append_assoc] at hJ hk ⊢
  have e1 : clientItems (T ++ U1.map .server) = clientItems T := clientItems_servers _ _
  have e2 : serverItems (T ++ U1.map .server) = serverItems T ++ U1 := serverItems_servers _ _
  obtain ⟨sops, hst⟩ := (Net.run_linked hl.net).server
  rw [e2] at hst
  have hC1 := hC.automatic (automatic_of_op h1) hst
  have hh := hl.heard hf.lawful hf.built hf.size (by rw [e2]; exact hC1) (by rw [e1]; exact hF) (by rw [e2]; exact hk.prefix)
  rw [e1, e2] at hh
  refine hf.clear hJ fun e he => ?_
  unfold serverHeard at he
  rw [List.filterMap_append] at he
  rw [show U2.filterMap SItem.heard? = [] from serverHeard_quiet h2, List.append_nil] at he
  exact hS e (hh e he)

/-- One step while both programs run. -/
theorem Fitting.step (hf : Fitting L gc gs os gr P P' I Q J ok) {v : σ} {c : FullStream K Client} {w : τ}
    {d : FullStream K Server} {G : List StreamNetItem} {n : Net} {T : List NItem}
    (h : Live L gc gs os gr I J s R v c w d G n T) {a : SessionAct} (hs : s.step L P P' a = some (s', R')) :
    (∃ v' c' w' d' G' n' T', Live L gc gs os gr I J s' (R ++ R') v' c' w' d' G' n' T') ∨
    ∃ c' w' d' G' n' T', Ended L gc gs os gr Q J s' (R ++ R') c' w' d' G' n' T' := by
  obtain ⟨hc, hd, hl, hI, hJ, hC⟩ := h
  have tls := hl.clientTls
  cases a with
  | client act =>
    simp only [Session.step] at hs
    split at hs
    · rename_i hp
      obtain ⟨x, items, h1, rfl, rfl⟩ := Session.clientDoes_cases hs
      rw [hc] at h1
      obtain ⟨c', G', n', U, k1, k2⟩ := hl.clientIo hf.lawful hf.built hf.client hI h1
      have e1 : clientItems (T ++ U.map .client) = clientItems T ++ U := clientItems_clients _ _
      have e2 : serverItems (T ++ U.map .client) = serverItems T := serverItems_clients _ _
      have e3 : sessionClient (R ++ items.map .client) = sessionClient R ++ items := by
        rw [sessionClient_append, (sessionClient_client items).1]
      have e4 : sessionServer (R ++ items.map .client) = sessionServer R := by
        rw [sessionServer_append, (sessionClient_client items).2, List.append_nil]
      cases x with
      | running v' e =>
        obtain ⟨⟨rfl, k3⟩, -⟩ := k2
        exact .inl ⟨v', e, w, d, G', n', _, rfl, hd, by rw [e3, e4]; exact k1, by rw [e1]; exact k3, by rw [e2]; exact hJ,
          by rw [e2]; exact hC⟩
      | over =>
        exact .inr ⟨_, w, d, G', n', _, rfl, .inl hd, by rw [e3, e4]; exact k1, by rw [e1]; exact k2,
          by rw [e2]; exact hJ, by rw [e2]; exact hC⟩
      | dead =>
        obtain ⟨k3, k4⟩ := k2
        have hr : s.server.isRunning = true := by rw [hd]; rfl
        rw [hr] at hp
        obtain ⟨e, he⟩ := k4.state tls.1 hp
        refine ((k1.expected hf.lawful hf.built hf.size (by rw [e2]; exact hC) (by rw [e1]; exact hf.fair k3)
          (by rw [e2]; exact hf.orderly hJ)).1 e ?_).elim
        rw [programStream_append]
        exact List.mem_append_right _ he
    · cases hs
  | clientLine text =>
    obtain ⟨x, items, h1, rfl, rfl⟩ := Session.clientDoes_cases hs
    rw [hc] at h1
    obtain ⟨v', c', G', n', U, k1, rfl, k2⟩ := hl.clientLine hf.lawful hf.built hf.client hI h1
    have e1 : clientItems (T ++ U.map .client) = clientItems T ++ U := clientItems_clients _ _
    have e2 : serverItems (T ++ U.map .client) = serverItems T := serverItems_clients _ _
    refine .inl ⟨v', c', w, d, G', n', _, rfl, hd, ?_, by rw [e1]; exact k2, by rw [e2]; exact hJ, by rw [e2]; exact hC⟩
    rw [sessionClient_append, (sessionClient_client items).1, sessionServer_append, (sessionClient_client items).2, List.append_nil]
    exact k1
  | server act coin =>
    simp only [Session.step] at hs
    split at hs
    · rename_i hp
      obtain ⟨x, items, h1, rfl, rfl⟩ := Session.serverDoes_cases hs
      rw [hd] at h1
      obtain ⟨c', G', n', U, k1, k2, sn1, S1, S1', G1, n1, U1, U2, rfl, m1, m2, m3⟩ :=
        hl.serverIo hf.lawful hf.built hf.server hJ h1
      have e1 : clientItems (T ++ (U1 ++ U2).map .server) = clientItems T := clientItems_servers _ _
      have e2 : serverItems (T ++ (U1 ++ U2).map .server) = serverItems T ++ (U1 ++ U2) := serverItems_servers _ _
      have e3 : sessionServer (R ++ items.map .server) = sessionServer R ++ items := by
        rw [sessionServer_append, (sessionServer_server items).1]
      have e4 : sessionClient (R ++ items.map .server) = sessionClient R := by
        rw [sessionClient_append, (sessionServer_server items).2, List.append_nil]
      cases x with
      | running w' e =>
        obtain ⟨⟨rfl, k3⟩, -⟩ := k2
        exact .inl ⟨v, c, w', e, G', n', _, hc, rfl, by rw [e3, e4]; exact k1, by rw [e1]; exact hI, by rw [e2]; exact k3,
          by rw [e2]; exact hf.clear_step m1 (hf.fair hI) (hf.said hI) hC m2 m3 k3⟩
      | over => exact k2.elim
      | dead =>
        obtain ⟨k3, k4⟩ := k2
        have hr : s.client.isRunning = true := by rw [hc]; rfl
        rw [hr] at hp
        obtain ⟨e, he⟩ := k4.state tls.2 hp
        refine ((k1.expected hf.lawful hf.built hf.size (by rw [e2]; exact hf.clear_step m1 (hf.fair hI) (hf.said hI) hC m2 m3 k3)
          (by rw [e1]; exact hf.fair hI) (by rw [e2]; exact hf.orderly k3)).2 e ?_).elim
        rw [programStream_append]
        exact List.mem_append_right _ he
    · cases hs
  | serverLine text =>
    obtain ⟨x, items, h1, rfl, rfl⟩ := Session.serverDoes_cases hs
    rw [hd] at h1
    obtain ⟨w', d', G', n', U, k1, rfl, k2, k3⟩ := hl.serverLine hf.lawful hf.built hf.server hJ h1
    have e1 : clientItems (T ++ U.map .server) = clientItems T := clientItems_servers _ _
    have e2 : serverItems (T ++ U.map .server) = serverItems T ++ U := serverItems_servers _ _
    refine .inl ⟨v, c, w', d', G', n', _, hc, rfl, ?_, by rw [e1]; exact hI, by rw [e2]; exact k2, ?_⟩
    · rw [sessionClient_append, (sessionServer_server items).2, sessionServer_append, (sessionServer_server items).1, List.append_nil]
      exact k1
    · rw [e2]
      exact hf.clear_step (U1 := []) (U2 := U) (by simpa using hl) (hf.fair hI) (hf.said hI) hC rfl k3 k2

/-- One step after the client has ended. -/
theorem Fitting.over_step (hf : Fitting L gc gs os gr P P' I Q J ok) {c : FullStream K Client} {w : τ}
    {d : FullStream K Server} {G : List StreamNetItem} {n : Net} {T : List NItem}
    (h : Ended L gc gs os gr Q J s R c w d G n T) {a : SessionAct} (hs : s.step L P P' a = some (s', R')) :
    sessionClient R' = [] ∧ ∃ w' d' G' n' T', Ended L gc gs os gr Q J s' (R ++ R') c w' d' G' n' T' := by
  obtain ⟨hc, hd, hl, hQ, hJ, hC⟩ := h
  have no : ∀ {act rest}, s.clientDoes L P act rest ≠ some (s', R') := by
    intro act rest hx
    obtain ⟨x, items, h1, -⟩ := Session.clientDoes_cases hx
    rw [hc] at h1
    cases h1
  cases a with
  | client act =>
    simp only [Session.step] at hs
    split at hs
    · exact (no hs).elim
    · cases hs
  | clientLine text => exact (no hs).elim
  | server act coin =>
    simp only [Session.step] at hs
    split at hs
    · obtain ⟨x, items, h1, rfl, rfl⟩ := Session.serverDoes_cases hs
      refine ⟨(sessionServer_server items).2, ?_⟩
      rcases hd with hd | hd
      · rw [hd] at h1
        obtain ⟨c', G', n', U, k1, k2, sn1, S1, S1', G1, n1, U1, U2, rfl, m1, m2, m3⟩ :=
          hl.serverIo hf.lawful hf.built hf.server hJ h1
        have e1 : clientItems (T ++ (U1 ++ U2).map .server) = clientItems T := clientItems_servers _ _
        have e2 : serverItems (T ++ (U1 ++ U2).map .server) = serverItems T ++ (U1 ++ U2) := serverItems_servers _ _
        have e3 : sessionServer (R ++ items.map .server) = sessionServer R ++ items := by
          rw [sessionServer_append, (sessionServer_server items).1]
        have e4 : sessionClient (R ++ items.map .server) = sessionClient R := by
          rw [sessionClient_append, (sessionServer_server items).2, List.append_nil]
        have key : ∀ w', J w' (serverItems T ++ (U1 ++ U2)) → x = .running w' c' ∨ x = .dead →
            ∃ w' d' G' n' T', Ended L gc gs os gr Q J ⟨s.client, x, act.rest s.toServer, s.toClient ++ streamWrote (programStream items)⟩
              (R ++ items.map .server) c w' d' G' n' T' :=
          fun w' k3 hx => ⟨w', c', G', n', _, hc, hx, by rw [e3, e4]; exact k1, by rw [e1]; exact hQ, by rw [e2]; exact k3,
            by rw [e2]; exact hf.clear_step m1 (hf.ended hQ) (hf.saidEnded hQ) hC m2 m3 k3⟩
        cases x with
        | running w' e =>
          obtain ⟨⟨rfl, k3⟩, -⟩ := k2
          exact key w' k3 (.inl rfl)
        | over => exact k2.elim
        | dead => exact key w k2.1 (.inr rfl)
      · rw [hd] at h1
        cases h1
    · cases hs
  | serverLine text =>
    obtain ⟨x, items, h1, rfl, rfl⟩ := Session.serverDoes_cases hs
    refine ⟨(sessionServer_server items).2, ?_⟩
    rcases hd with hd | hd
    · rw [hd] at h1
      obtain ⟨w', d', G', n', U, k1, rfl, k2, k3⟩ := hl.serverLine hf.lawful hf.built hf.server hJ h1
      have e1 : clientItems (T ++ U.map .server) = clientItems T := clientItems_servers _ _
      have e2 : serverItems (T ++ U.map .server) = serverItems T ++ U := serverItems_servers _ _
      refine ⟨w', d', G', n', _, hc, .inl rfl, ?_, by rw [e1]; exact hQ, by rw [e2]; exact k2, ?_⟩
      · rw [sessionClient_append, (sessionServer_server items).2, sessionServer_append, (sessionServer_server items).1, List.append_nil]
        exact k1
      · rw [e2]
        exact hf.clear_step (U1 := []) (U2 := U) (by simpa using hl) (hf.ended hQ) (hf.saidEnded hQ) hC rfl k3 k2
    · rw [hd] at h1
      cases h1

theorem Session.run_snoc {s z : Session K σ τ} {as : List SessionAct} {a : SessionAct}
    (h : s.run L P P' (as ++ [a]) = some (z, R)) :
    ∃ y R1 R2, s.run L P P' as = some (y, R1) ∧ y.step L P P' a = some (z, R2) ∧ R = R1 ++ R2 := by
  induction as generalizing s R with
  | nil =>
    simp only [List.nil_append, Session.run] at h
    split at h
    · cases h
    · rename_i s1 items h1
      cases h
      exact ⟨s, [], items, rfl, h1, by simp⟩
  | cons b as ih =>
    simp only [List.cons_append, Session.run] at h ⊢
    split at h
    · cases h
    · rename_i s1 items h1
      split at h
      · cases h
      · rename_i s2 R3 h2
        cases h
        obtain ⟨y, R1, R2, h3, h4, rfl⟩ := ih h2
        exact ⟨y, items ++ R1, R2, by simp [h3], h4, by simp⟩

theorem Session.run_append {x s s' : Session K σ τ} {as bs : List SessionAct} (h1 : x.run L P P' as = some (s, R))
    (h2 : s.run L P P' bs = some (s', R')) : x.run L P P' (as ++ bs) = some (s', R ++ R') := by
  induction as generalizing x R with
  | nil => cases h1; simpa using h2
  | cons a as ih =>
    simp only [List.cons_append, Session.run] at h1 ⊢
    split at h1
    · cases h1
    · rename_i s1 items h3
      split at h1
      · cases h1
      · rename_i s2 R3 h4
        cases h1
        simp [ih h4]

/-- Both programs run, or the client has ended. -/
theorem Fitting.run (hf : Fitting L gc gs os gr P P' I Q J ok) (hg : ClearServer L .default os gr [])
    {as : List SessionAct}
    (h : Session.run L P P' ⟨Examples.startClient P gc, .running P'.start (.insecure (Server.new gs os gr)), [], []⟩ as =
      some (s, R)) :
    (∃ v c w d G n T, Live L gc gs os gr I J s R v c w d G n T) ∨
    ∃ c w d G n T, Ended L gc gs os gr Q J s R c w d G n T := by
  induction as using snocInduction generalizing s R with
  | nil =>
    cases h
    exact .inl ⟨_, _, _, _, _, _, _, rfl, rfl, Linkage.start K L gc gs os gr, hf.client.start, hf.server.start, hg⟩
  | snoc as a ih =>
    obtain ⟨y, R1, R2, h1, h2, rfl⟩ := Session.run_snoc h
    rcases ih h1 with ⟨v, c, w, d, G, n, T, h3⟩ | ⟨c, w, d, G, n, T, h3⟩
    · exact hf.step h3 h2
    · obtain ⟨-, h4⟩ := hf.over_step h3 h2
      exact .inr ⟨c, h4⟩

end

end ImapFlow
