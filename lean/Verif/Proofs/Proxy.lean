import Verif.Proofs.ProxyLedger

/-!
# The invariant of the proxy
-/

namespace ImapFlow

variable {K : Type} {L : Lib} {tc ts : Option (Tls K)} {gc gs : HandleGenerator}

/-! ## Failures of TLS -/

section
variable {σ ε ev ι : Type}

/-- `decrypt` has neither failed nor hung. -/
def FullStream.Live (c : FullStream K σ) : Prop := c.ctl ≠ .hung ∧ c.ctl ≠ .broken

/-- What a failure of TLS means for `next`. -/
structure Failures (c' : FullStream K σ) (T : List (FullItem ε ev ι)) : Prop where
  hung : c'.ctl = .hung ↔ .hung ∈ T
  last : .hung ∈ T → ∃ T0 : List (StreamItem ε ev ι), T = T0.map .stream ++ [.hung]
  broken : c'.ctl = .broken ↔ .broken ∈ T
  tls : .broken ∈ T → nextResult T = some (.error .tls)
  refused : .refused ∈ T → nextResult T = some (.error .io)

theorem Failures.none {c' : FullStream K σ} {T : List (StreamItem ε ev ι)} (h : c'.Live) : Failures c' (T.map .stream) :=
  ⟨⟨fun x => (h.1 x).elim, by simp⟩, by simp, ⟨fun x => (h.2 x).elim, by simp⟩, by simp, by simp⟩

theorem FullStream.Advanced.failures {M : Machine σ ε ev ι} {c c' : FullStream K σ} {x : StreamItem ε ev ι}
    {T : List (FullItem ε ev ι)} (h : Advanced M c c' T) (hx : x.Outside) : Failures c' (.stream x :: T) := by
  have hx' : ∀ r, x ≠ .returned r := by rintro r rfl; exact hx
  have hD : ∀ {b s s1} {D : List (StreamItem ε ev ι)}, Provides M b s s1 D → ∀ i ∈ D, ∀ r, i ≠ .returned r := by
    rintro b s s1 D (⟨-, -, rfl⟩ | ⟨-, -, rfl⟩) <;> simp
  cases h with
  | hung h1 h2 h3 => subst h3; exact ⟨by simp, fun _ => ⟨[x], rfl⟩, by simp, by simp, by simp⟩
  | broken h1 h2 h3 =>
    subst h3
    exact ⟨by simp, by simp, by simp, fun _ => by rw [nextResult_cons hx']; rfl, by simp⟩
  | inputPanic h1 h2 h3 => subst h3; exact .none (T := [x, _]) ⟨by simp, by simp⟩
  | @nextPanic _ _ _ D _ p h1 h2 h3 h4 =>
    subst h4
    have := Failures.none (K := K) (c' := { c with ctl := .at .dead }) (T := x :: (D ++ [.panicked p])) ⟨by simp, by simp⟩
    simp only [List.map_cons, List.map_append, List.map_nil] at this
    exact ⟨⟨by simp, this.hung.2⟩, this.last, ⟨by simp, this.broken.2⟩, this.tls, this.refused⟩
  | @returned _ _ _ D _ _ r h1 h2 h3 h4 h5 =>
    subst h5
    exact .none (T := x :: (D ++ StreamItem.poll r :: returns r)) ⟨by simp, by simp⟩
  | @waits _ _ _ D _ _ io c1 h1 h2 h3 h4 h5 =>
    subst h5
    exact .none (T := x :: (D ++ [StreamItem.poll (.error (.io io))])) ⟨by simp, by simp⟩
  | @refused _ _ _ D _ _ io c1 h1 h2 h3 h4 h5 =>
    subst h5
    refine ⟨by simp, by simp, by simp, by simp, fun _ => ?_⟩
    rw [nextResult_cons hx', nextResult_map]
    · rfl
    · intro i hi
      rcases List.mem_append.1 hi with hi | hi
      · exact hD h2 i hi
      · rw [List.mem_singleton.1 hi]; simp

theorem FullStream.Stepped.failures {M : Machine σ ε ev ι} {c c' : FullStream K σ} {T : List (FullItem ε ev ι)}
    (h : Stepped M c c' T) : Failures c' T := by
  have live : ∀ {ctl}, c.ctl = .at ctl → c.Live := by intro ctl h; constructor <;> simp [h]
  cases h with
  | user h1 h2 h3 => subst h3; exact .none (T := [_]) (live h1)
  | userPanic h1 h2 h3 => subst h3; exact .none (T := [_, _]) ⟨by simp, by simp⟩
  | callNext h1 h2 => exact h2.failures trivial
  | read h1 h2 h3 => exact h3.failures trivial
  | written h1 h2 h3 h4 => exact h4.failures trivial
  | wrote h1 h2 h3 h4 =>
    rcases h4 with ⟨-, rfl, rfl⟩ | ⟨-, -, rfl, rfl⟩
    · rcases h1 with h1 | h1 <;> exact .none (live h1)
    · exact .none ⟨by simp, by simp⟩
  | flush h1 h2 h3 =>
    have := (handleOutput_same_recv h2).2.2.2
    rcases h3 with ⟨-, rfl, rfl⟩ | ⟨-, rfl, rfl⟩
    · exact .none ⟨by simp [this, h1], by simp [this, h1]⟩
    · exact .none ⟨by simp, by simp⟩
  | ended h1 h2 => subst h1; exact .none (T := [_, _]) ⟨by simp, by simp⟩
  | dropped h1 h2 => subst h2; exact .none (T := [_]) ⟨by simp, by simp⟩

theorem FullStream.step_failures {M : Machine σ ε ev ι} {c c' : FullStream K σ} {a : StreamAct ι}
    {T : List (FullItem ε ev ι)} (h : c.step M a = some (c', T)) : Failures c' T :=
  (FullStream.step_cases h).failures

theorem FullStream.Live.idle {c : FullStream K σ} (h : c.ctl = .at .idle) : c.Live := by
  constructor <;> simp [h]

/-- A step that returns an event does not hang. -/
theorem Failures.returned {c' : FullStream K σ} {T : List (FullItem ε ev ι)} {r : Except (StreamError ε) ev}
    (h : Failures c' (T ++ [.stream (.returned r)])) : c'.ctl ≠ .hung := by
  intro hh
  obtain ⟨T0, ht⟩ := h.last (h.hung.1 hh)
  have := congrArg List.getLast? ht
  simp at this

/-- Without a failure the stream can be used on. -/
theorem Failures.live {c' : FullStream K σ} {T : List (FullItem ε ev ι)} (h : Failures c' T) (hh : c'.ctl ≠ .hung)
    (ht : nextResult T ≠ some (.error .tls)) (hi : nextResult T ≠ some (.error .io)) :
    c'.Live ∧ ∀ i ∈ T, ∃ j, i = .stream j := by
  have h1 : .broken ∉ T := fun hm => ht (h.tls hm)
  refine ⟨⟨hh, fun hb => h1 (h.broken.1 hb)⟩, fun i hm => ?_⟩
  cases i with
  | stream j => exact ⟨j, rfl⟩
  | refused => exact (hi (h.refused hm)).elim
  | broken => exact (h1 hm).elim
  | hung => exact (hh (h.hung.2 hm)).elim

end

/-- No failure of TLS. -/
def Calm (T : List ProxyItem) : Prop := ∀ i, .clientTls i ∉ T ∧ .serverTls i ∉ T

/-- No `decrypt` hung. -/
def Awake (T : List ProxyItem) : Prop := ∀ i, (i = .clientTls .hung ∨ i = .serverTls .hung) → i ∉ T

theorem Calm.awake {T : List ProxyItem} (h : Calm T) : Awake T := by
  rintro i (rfl | rfl)
  · exact (h _).1
  · exact (h _).2

theorem Awake.append {T D : List ProxyItem} (h : Awake T) (hD : Awake D) : Awake (T ++ D) := by
  intro i hi
  simp only [List.mem_append, not_or]
  exact ⟨h i hi, hD i hi⟩

theorem Awake.client {I : List (FullItem ServerError ServerEvent ServerOp)} (h : .hung ∉ I) : Awake (I.map .ofClient) := by
  rintro i hi hm
  obtain ⟨x, hx, rfl⟩ := List.mem_map.1 hm
  cases x with
  | hung => exact h hx
  | _ => rcases hi with hi | hi <;> cases hi

theorem Awake.server {I : List (FullItem ClientError ClientEvent ClientOp)} (h : .hung ∉ I) : Awake (I.map .ofServer) := by
  rintro i hi hm
  obtain ⟨x, hx, rfl⟩ := List.mem_map.1 hm
  cases x with
  | hung => exact h hx
  | _ => rcases hi with hi | hi <;> cases hi

theorem Calm.nil : Calm [] := fun _ => ⟨by simp, by simp⟩

theorem Calm.append {T D : List ProxyItem} (h : Calm T) (hD : Calm D) : Calm (T ++ D) := by
  intro i
  simp only [List.mem_append, not_or]
  exact ⟨⟨(h i).1, (hD i).1⟩, (h i).2, (hD i).2⟩

theorem Calm.client {I : List (FullItem ServerError ServerEvent ServerOp)} (h : ∀ i ∈ I, ∃ j, i = .stream j) :
    Calm (I.map .ofClient) := by
  intro i
  constructor <;>
  · intro hm
    obtain ⟨x, hx, he⟩ := List.mem_map.1 hm
    obtain ⟨j, rfl⟩ := h x hx
    cases he

theorem Calm.server {I : List (FullItem ClientError ClientEvent ClientOp)} (h : ∀ i ∈ I, ∃ j, i = .stream j) :
    Calm (I.map .ofServer) := by
  intro i
  constructor <;>
  · intro hm
    obtain ⟨x, hx, he⟩ := List.mem_map.1 hm
    obtain ⟨j, rfl⟩ := h x hx
    cases he

theorem Calm.serverCalls (calls : List ClientOp) : Calm (serverCalls calls) := by
  intro i
  simp [ImapFlow.serverCalls]

theorem Calm.clientCalls (calls : List ServerOp) : Calm (clientCalls calls) := by
  intro i
  simp [ImapFlow.clientCalls]

theorem Calm.panicked (p : Panic) : Calm [.panicked p] := by
  intro i
  simp

/-! ## The invariant -/

/-- Both connections with their traces. -/
structure Talk (L : Lib) (tc ts : Option (Tls K)) (gc gs : HandleGenerator) (T : List ProxyItem) (c : FullStream K Server)
    (s : FullStream K Client) (o : ServerOptions) (gr : Greeting) (V : List SItem) (U : List CItem) : Prop where
  options : proxyServerOptions L = .ok o
  client : ServerLink L tc gs o gr.restrict (clientFull T) c V
  server : ClientLink L ts gc .default (serverFull T) s U
  greeting : ∃ es, serverEvents T = .greetingReceived gr :: es

/-- The conversation goes on or ended regularly. -/
structure Conversing (L : Lib) (tc ts : Option (Tls K)) (gc gs : HandleGenerator) (T : List ProxyItem)
    (c : FullStream K Server) (s : FullStream K Client) (o : ServerOptions) (gr : Greeting) (V : List SItem)
    (U : List CItem) : Prop extends Talk L tc ts gc gs T c s o gr V U where
  ledger : Ledger T
  joint : Joint (ProxyWatch.of T) (serverPhase V) (ClientView.of U)

/-- The greeting was not received yet. -/
structure Greeted (L : Lib) (ts : Option (Tls K)) (gc : HandleGenerator) (T : List ProxyItem) (s : FullStream K Client)
    (U : List CItem) : Prop where
  client : clientFull T = []
  server : ClientLink L ts gc .default (serverFull T) s U
  events : serverEvents T = []
  calls : streamCalls (serverSide T) = []
  ledger : Ledger T
  watch : ProxyWatch.of T = ⟨false, false⟩

/-- The proxy panicked. -/
structure Died (L : Lib) (tc ts : Option (Tls K)) (gc gs : HandleGenerator) (T : List ProxyItem) (c : FullStream K Server)
    (s : FullStream K Client) (o : ServerOptions) (gr : Greeting) (V : List SItem) (U : List CItem) : Prop
    extends Talk L tc ts gc gs T c s o gr V U where
  calm : Calm T
  last : ∃ T', T = T' ++ [.panicked .unwrapFailed] ∧ ∀ p, .panicked p ∉ T'
  cause : (UnaskedData T ∧ ¬ BrokenIdle T ∧
      (∃ d, dueCalls T = madeCalls T ++ [.setAuthenticateData d]) ∧
      forwardedResponses T = (serverEvents T).filterMap ClientEvent.forwarded) ∨
    (BrokenIdle T ∧ ¬ UnaskedData T ∧ madeCalls T = dueCalls T ∧ ∃ es hd st, serverEvents T = es ++ [.idleRejected hd st] ∧
      forwardedResponses T = es.filterMap ClientEvent.forwarded)

/-- The last thing that happened is that a `decrypt` did not end. -/
def EndsHung (T : List ProxyItem) : Prop := ∃ T', Calm T' ∧ (T = T' ++ [.clientTls .hung] ∨ T = T' ++ [.serverTls .hung])

/-- The invariant. -/
def Proxy.Inv (L : Lib) (tc ts : Option (Tls K)) (gc gs : HandleGenerator) (T : List ProxyItem) : Proxy K → Prop
  | .greeting t s => (t = tc ∧ Calm T ∧ s.Live) ∧ ∃ U, Greeted L ts gc T s U
  | .conversation c s => (Calm T ∧ c.Live ∧ s.Live) ∧ ∃ o gr V U, Conversing L tc ts gc gs T c s o gr V U
  | .over => ((∃ s U, Greeted L ts gc T s U) ∨ ∃ c s o gr V U, Conversing L tc ts gc gs T c s o gr V U) ∧
      Awake T
  | .hung => ((∃ s U, Greeted L ts gc T s U) ∨ ∃ c s o gr V U, Conversing L tc ts gc gs T c s o gr V U) ∧ EndsHung T
  | .dead => ∃ c s o gr V U, Died L tc ts gc gs T c s o gr V U

theorem Proxy.start_inv : (Proxy.start tc ts gc).Inv L tc ts gc gs [] :=
  ⟨⟨rfl, .nil, by constructor <;> simp [FullStream.new_ctl]⟩, [], rfl, .start L ts gc .default, rfl, rfl, .start, rfl⟩

theorem IoAct.toStream_user {ι : Type} (a : IoAct) (op : ι) : (a.toStream : StreamAct ι) ≠ .user op := by
  cases a <;> simp [IoAct.toStream]

theorem quiet_client {D : List (FullItem ServerError ServerEvent ServerOp)} (h : ∀ i ∈ streamPart D, i.Plain) :
    ∀ x ∈ D.map ProxyItem.ofClient, x.Quiet := by
  intro x hx
  obtain ⟨i, hi, rfl⟩ := List.mem_map.mp hx
  cases i with
  | stream j => exact h j (List.mem_filterMap.mpr ⟨_, hi, rfl⟩)
  | _ => trivial

theorem quiet_server {D : List (FullItem ClientError ClientEvent ClientOp)} (h : ∀ i ∈ streamPart D, i.Plain) :
    ∀ x ∈ D.map ProxyItem.ofServer, x.Quiet := by
  intro x hx
  obtain ⟨i, hi, rfl⟩ := List.mem_map.mp hx
  cases i with
  | stream j => exact h j (List.mem_filterMap.mpr ⟨_, hi, rfl⟩)
  | _ => trivial

theorem dropped_plain {ε ev ι : Type} {D : List (FullItem ε ev ι)} (h : D = [] ∨ D = [.stream .dropped]) :
    ∀ i ∈ streamPart D, i.Plain := by
  rcases h with rfl | rfl
  · simp [streamPart]
  · intro i hi; rw [streamPart_one] at hi; rw [List.mem_singleton.mp hi]; exact ⟨rfl, rfl⟩

theorem dropped_stream {ε ev ι : Type} {D : List (FullItem ε ev ι)} (h : D = [] ∨ D = [.stream .dropped]) :
    ∀ i ∈ D, ∃ j, i = .stream j := by
  rcases h with rfl | rfl <;> simp

theorem serverEvents_client (i : StreamItem ServerError ServerEvent ServerOp) : serverEvents [.client i] = [] := rfl

theorem serverEvents_panicked (p : Panic) : serverEvents [.panicked p] = [] := rfl

theorem clientFull_panicked (p : Panic) : clientFull [.panicked p] = [] := rfl

theorem serverFull_panicked (p : Panic) : serverFull [.panicked p] = [] := rfl

theorem forwardedResponses_panicked (p : Panic) : forwardedResponses [.panicked p] = [] := rfl

theorem forwardedResponses_returned (r : Except (StreamError ServerError) ServerEvent) :
    forwardedResponses [.client (.returned r)] = [] := rfl

theorem forwardedResponses_server (i : StreamItem ClientError ClientEvent ClientOp) :
    forwardedResponses [.server i] = [] := rfl

/-- Quiet items keep the conversation going. -/
theorem Conversing.quiet {T D : List ProxyItem} {c c' : FullStream K Server} {s s' : FullStream K Client} {o : ServerOptions}
    {gr : Greeting} {V V' : List SItem} {U U' : List CItem} (h : Conversing L tc ts gc gs T c s o gr V U)
    (hD : ∀ x ∈ D, x.Quiet) (hc : ServerLink L tc gs o gr.restrict (clientFull (T ++ D)) c' (V ++ V'))
    (hs : ClientLink L ts gc .default (serverFull (T ++ D)) s' (U ++ U')) (hV : ∀ i ∈ V', i.Silent) (hU : ∀ i ∈ U', i.Silent) :
    Conversing L tc ts gc gs (T ++ D) c' s' o gr (V ++ V') (U ++ U') := by
  refine ⟨⟨h.options, hc, hs, ?_⟩, h.ledger.quiet hD, ?_⟩
  · rw [serverEvents_append, (Quiet.nothing hD).2.2.2, List.append_nil]; exact h.greeting
  · rw [ProxyWatch.of_dull fun x hx => (hD x hx).dull, serverPhase_silent hV]
    exact h.joint.same (ClientView.of_silent hU)

theorem Proxy.step_client (hL : L.Lawful) (hP : L.Proxyable) {T items : List ProxyItem} {c : FullStream K Server}
    {s : FullStream K Client} {a : IoAct} {p : Proxy K} (h : Proxy.Inv L tc ts gc gs T (.conversation c s))
    (hs : Proxy.step L gs (.conversation c s) (.client a) = some (p, items)) : p.Inv L tc ts gc gs (T ++ items) := by
  obtain ⟨⟨hcalm, hlc, hls⟩, o, gr, V, U, h⟩ := h
  obtain ⟨o', ho, hO⟩ := proxyServerOptions_ok hL hP
  obtain rfl : o = o' := by have := h.options.symm.trans ho; cases this; rfl
  simp only [Proxy.step] at hs
  cases hst : c.step (serverMachine L) a.toStream with
  | none => rw [hst] at hs; cases hs
  | some x =>
    obtain ⟨c', I⟩ := x
    rw [hst] at hs
    simp only at hs
    obtain ⟨V', hlink, hprog⟩ := h.client.step hL hO a.toStream_user hst
    have hf := FullStream.step_failures hst
    rw [if_neg hlink.alive] at hs
    rcases hprog.event with ⟨hV, hI⟩ | ⟨pre, i, e, rfl, hpre, hi, hI⟩
    · have hconv : Conversing L tc ts gc gs (T ++ I.map .ofClient) c' s o gr (V ++ V') (U ++ []) :=
        h.quiet (quiet_client hI.1) (by rw [clientFull_append, clientFull_client]; exact hlink)
          (by rw [serverFull_append, serverFull_client, List.append_nil, List.append_nil]; exact h.server) hV (by simp)
      rw [List.append_nil] at hconv
      by_cases hh : c'.ctl = .hung
      · rw [if_pos hh] at hs
        simp only [Option.some.injEq, Prod.mk.injEq] at hs
        obtain ⟨rfl, rfl⟩ := hs
        obtain ⟨I0, rfl⟩ := hf.last (hf.hung.1 hh)
        refine ⟨.inr ⟨_, _, _, _, _, _, hconv⟩, T ++ (I0.map .stream).map .ofClient, hcalm.append (.client (by simp)), .inl ?_⟩
        rw [List.map_append, List.append_assoc]; rfl
      rw [if_neg hh] at hs
      have hawake : Awake (I.map .ofClient) := .client fun hm => hh (hf.hung.2 hm)
      cases hr : nextResult I with
      | none =>
        have hlive := hf.live hh (by rw [hr]; simp) (by rw [hr]; simp)
        rw [hr] at hs
        simp only [Option.some.injEq, Prod.mk.injEq] at hs
        obtain ⟨rfl, rfl⟩ := hs
        exact ⟨⟨hcalm.append (.client hlive.2), hlive.1, hls⟩, _, _, _, _, hconv⟩
      | some r =>
        rw [hr] at hs
        obtain ⟨D, s', hdrop, hstate, hctl, hD, hlink2⟩ := hconv.server.drop hls
        have hconv2 : Conversing L tc ts gc gs (T ++ I.map .ofClient ++ D.map .ofServer) c' s' o gr (V ++ V' ++ []) (U ++ []) :=
          hconv.quiet (quiet_server (dropped_plain hD))
            (by rw [clientFull_append (T ++ _), clientFull_server, List.append_nil, List.append_nil]; exact hconv.client)
            (by rw [serverFull_append (T ++ _), serverFull_server, List.append_nil]; exact hlink2) (by simp) (by simp)
        rw [List.append_nil, List.append_nil, List.append_assoc] at hconv2
        cases r with
        | ok e => exact (hI.2 e hr).elim
        | error e =>
          simp only [Proxy.clientBranch, hdrop] at hs
          cases e with
          | closed =>
            simp only [handleClientEvent, List.map_nil, List.append_nil, Option.some.injEq, Prod.mk.injEq] at hs
            obtain ⟨rfl, rfl⟩ := hs
            exact ⟨.inr ⟨_, _, _, _, _, _, hconv2⟩,
              hcalm.awake.append (hawake.append (Calm.server (dropped_stream hD)).awake)⟩
          | io =>
            simp only [handleClientEvent, List.map_nil, List.append_nil, Option.some.injEq, Prod.mk.injEq] at hs
            obtain ⟨rfl, rfl⟩ := hs
            exact ⟨.inr ⟨_, _, _, _, _, _, hconv2⟩,
              hcalm.awake.append (hawake.append (Calm.server (dropped_stream hD)).awake)⟩
          | tls =>
            simp only [handleClientEvent, List.map_nil, List.append_nil, Option.some.injEq, Prod.mk.injEq] at hs
            obtain ⟨rfl, rfl⟩ := hs
            exact ⟨.inr ⟨_, _, _, _, _, _, hconv2⟩,
              hcalm.awake.append (hawake.append (Calm.server (dropped_stream hD)).awake)⟩
          | state e =>
            have hlive := hf.live hh (by rw [hr]; simp) (by rw [hr]; simp)
            simp only [handleClientEvent, List.map_nil, List.append_nil, Option.some.injEq, Prod.mk.injEq] at hs
            obtain ⟨rfl, rfl⟩ := hs
            exact ⟨⟨hcalm.append ((Calm.client hlive.2).append (.server (dropped_stream hD))), hlive.1, .idle hctl⟩, _, _, _, _, hconv2⟩
    · obtain ⟨I0, rfl, hI0, hr⟩ := hI
      have hh := hf.returned
      have hlive := hf.live hh (by rw [hr]; simp) (by rw [hr]; simp)
      rw [if_neg hh, hr] at hs
      have hq : ∀ x ∈ I0.map ProxyItem.ofClient, x.Quiet := quiet_client hI0
      have hled := h.ledger.quiet hq
      have hw : ProxyWatch.of (T ++ I0.map .ofClient) = ProxyWatch.of T := ProxyWatch.of_dull (fun x hx => (hq x hx).dull) T
      obtain ⟨D, s', hdrop, hstate, hctl, hD, hlink2⟩ := h.server.drop hls
      have hDq : ∀ x ∈ D.map ProxyItem.ofServer, x.Quiet := quiet_server (dropped_plain hD)
      obtain ⟨ops, htr⟩ := hlink.trace
      have hguard : Server.Guard L o (ServerView.of gr.restrict (V ++ pre)) i :=
        Server.trace_guard (T2 := []) (by rw [← List.append_assoc] at htr; exact htr)
      have hph : (ServerView.of gr.restrict (V ++ pre)).phase = serverPhase V := by
        rw [ServerView.of_phase, serverPhase_silent hpre]
      have hj : Joint (ProxyWatch.of T) (ServerView.of gr.restrict (V ++ pre)).phase (ClientView.of U) := by
        rw [hph]; exact h.joint
      have hitem : (I0 ++ [FullItem.stream (.returned (.ok e))]).map ProxyItem.ofClient =
        I0.map .ofClient ++ [.client (.returned (.ok e))] := by simp [ProxyItem.ofClient]
      simp only [Proxy.clientBranch, hdrop, hstate] at hs
      rcases handleClientEvent_spec hL hlink2 hctl hj hguard hi with ⟨ha, ⟨d, rfl⟩, he⟩ | ⟨ha, st, calls, U', he, hcalls, hlink3, hj2⟩
      · rw [hstate] at he
        rw [he] at hs
        simp only [Option.some.injEq, Prod.mk.injEq] at hs
        obtain ⟨rfl, rfl⟩ := hs
        have hfull : T ++ ((I0 ++ [FullItem.stream (.returned (.ok (ServerEvent.authenticateDataReceived d)))]).map ProxyItem.ofClient ++
            (D.map ProxyItem.ofServer ++ [.panicked .unwrapFailed])) =
          (T ++ I0.map .ofClient ++ [.client (.returned (.ok (.authenticateDataReceived d)))] ++ D.map .ofServer) ++
            [.panicked .unwrapFailed] := by simp [ProxyItem.ofClient]
        rw [hfull]
        have hdl : ∀ x ∈ [ProxyItem.panicked .unwrapFailed], x.Dull := by
          intro x hx; rw [List.mem_singleton.mp hx]; exact ⟨nofun, nofun⟩
        obtain ⟨n1, n2, n3, n4⟩ := Quiet.nothing hDq
        refine ⟨c', s', o, gr, V ++ (pre ++ [i]), U, ⟨h.options, ?_, ?_, ?_⟩, ?_, ⟨_, rfl, ?_⟩, .inl ⟨?_, ?_, ⟨d, ?_⟩, ?_⟩⟩
        · rw [clientFull_append, clientFull_append, clientFull_server, List.append_assoc T, ← hitem,
            clientFull_append T, clientFull_client]
          rw [clientFull_panicked, List.append_nil, List.append_nil]
          exact hlink
        · rw [serverFull_append, serverFull_append, serverFull_server, List.append_assoc T, ← hitem,
            serverFull_append T, serverFull_client]
          rw [serverFull_panicked, List.append_nil, List.append_nil]
          exact hlink2
        · rw [serverEvents_append, serverEvents_append, serverEvents_append, serverEvents_append, n4,
            (Quiet.nothing hq).2.2.2, serverEvents_client, serverEvents_panicked]
          simpa using h.greeting
        · rw [List.append_assoc T, ← hitem]
          exact ((hcalm.append (.client hlive.2)).append (.server (dropped_stream hD))).append (.panicked _)
        · intro p hp
          simp only [List.mem_append (s := T ++ I0.map ProxyItem.ofClient ++ _), List.mem_append (s := T ++ I0.map ProxyItem.ofClient), List.mem_singleton] at hp
          rcases hp with (hp | hp) | hp
          · exact hled.calm p hp
          · cases hp
          · exact hDq _ hp
        · rw [UnaskedData.dull hdl, UnaskedData.dull fun x hx => (hDq x hx).dull, UnaskedData.snoc, hw]
          exact .inr ⟨⟨d, rfl⟩, ha⟩
        · rw [BrokenIdle.dull hdl, BrokenIdle.dull fun x hx => (hDq x hx).dull, BrokenIdle.snoc]
          rintro (hb | ⟨⟨_, _, hb⟩, -⟩)
          · exact hled.idle hb
          · cases hb
        · simp only [madeCalls_append (_ ++ _), dueCalls_append (_ ++ _), n1, n2, List.append_nil, hled.calls]
          show _ ++ [ClientOp.setAuthenticateData d] ++ [] = _ ++ [] ++ [] ++ [ClientOp.setAuthenticateData d]
          simp
        · simp only [forwardedResponses_append (_ ++ _), serverEvents_append (_ ++ _), n3, n4, List.append_nil,
            hled.responses, serverEvents_client, serverEvents_panicked, forwardedResponses_returned,
            forwardedResponses_panicked]
      · rw [hstate] at he
        rw [he] at hs
        simp only [Option.some.injEq, Prod.mk.injEq] at hs
        obtain ⟨rfl, rfl⟩ := hs
        have hfull : T ++ ((I0 ++ [FullItem.stream (.returned (.ok e))]).map ProxyItem.ofClient ++
            (D.map ProxyItem.ofServer ++ calls.map fun op => ProxyItem.server (.user op))) =
          T ++ I0.map .ofClient ++ [.client (.returned (.ok e))] ++ D.map .ofServer ++ serverCalls calls := by
          simp [serverCalls, ProxyItem.ofClient]
        rw [hfull]
        obtain ⟨n1, n2, n3, n4⟩ := Quiet.nothing hDq
        refine ⟨⟨?_, hlive.1, .idle hctl⟩, o, gr, V ++ (pre ++ [i]), U ++ U', ⟨h.options, ?_, ?_, ?_⟩, ?_, ?_⟩
        · rw [List.append_assoc T, ← hitem]
          exact ((hcalm.append (.client hlive.2)).append (.server (dropped_stream hD))).append (.serverCalls _)
        · rw [clientFull_append, clientFull_append, clientFull_server, List.append_assoc T, ← hitem,
            clientFull_append T, clientFull_client, (serverCalls_full calls).1, List.append_nil, List.append_nil]
          exact hlink
        · rw [serverFull_append, serverFull_append, serverFull_server, List.append_assoc T, ← hitem,
            serverFull_append T, serverFull_client, (serverCalls_full calls).2, List.append_nil]
          exact hlink3
        · rw [serverEvents_append, serverEvents_append, serverEvents_append, serverEvents_append, n4,
            (Quiet.nothing hq).2.2.2, (serverCalls_nothing calls).2.2.2, serverEvents_client]
          simpa using h.greeting
        · exact hled.client hDq hcalls (by rw [hw]; exact ha)
        · rw [ProxyWatch.of_dull (serverCalls_dull calls), ProxyWatch.of_dull fun x hx => (hDq x hx).dull,
            ProxyWatch.of_snoc, hw, ← List.append_assoc, serverPhase_snoc, serverPhase_silent hpre]
          rw [hph] at hj2
          exact hj2

theorem continuation_decoded {L : Lib} {relaxed : Bool} {v : ClientView} {i : CItem} {r : ContinuationRequest}
    (hg : Client.Guard L relaxed v i) (hi : i.event? = some (.continuationRequestReceived r)) :
    ∃ w rem, L.decodeResponse w = .ok (rem, .continuationRequest r) := by
  cases i with
  | sent e =>
    cases hi
    obtain ⟨-, hd, cmd, q, -, hg⟩ := hg
    rcases hg with ⟨hg, -⟩ | ⟨hg, -⟩ | ⟨hg, -⟩ | ⟨hg, -⟩ <;> cases hg
  | received b e =>
    cases hi
    obtain ⟨-, -, hg⟩ := hg
    rcases hg with ⟨-, g, hg, -⟩ | ⟨-, m, hg, p, l, -, -, -, -, hm⟩
    · cases hg
    · rcases ClientView.route_cases hg with ⟨d, hx⟩ | ⟨st, hx⟩ | ⟨c, rfl, hx⟩ | ⟨hd, cmd, -, hx⟩
      · cases hx
      · cases hx
      · cases hx; exact ⟨_, _, hm⟩
      · rcases hx with ⟨_, hx, -⟩ | ⟨_, _, hx, -⟩ | ⟨_, hx, -⟩ | ⟨_, hx, -⟩ | ⟨_, hx, -⟩ <;> cases hx
  | _ => cases hi

/-- The invariant of the client holds at every point of a trace. -/
theorem Client.prefix_inv (hL : L.Lawful) {o : ClientOptions} {ops : List ClientOp} {c : Client} {T1 T2 : List CItem}
    {i : CItem} (h : (Client.new gc o).trace L ops = .ok (c, T1 ++ i :: T2)) :
    ∃ c1 : Client, c1.Inv L o.crlfRelaxed (ClientView.of T1) := by
  obtain ⟨c1, h1, -⟩ := (Client.trace_steps h).split
  exact ⟨c1, Client.steps_inv hL (Client.new_inv L gc o) h1⟩

theorem Proxy.step_server (hL : L.Lawful) (hP : L.Proxyable) {T items : List ProxyItem} {c : FullStream K Server}
    {s : FullStream K Client} {a : IoAct} {p : Proxy K} (h : Proxy.Inv L tc ts gc gs T (.conversation c s))
    (hs : Proxy.step L gs (.conversation c s) (.server a) = some (p, items)) : p.Inv L tc ts gc gs (T ++ items) := by
  obtain ⟨⟨hcalm, hlc, hls⟩, o, gr, V, U, h⟩ := h
  obtain ⟨o', ho, hO⟩ := proxyServerOptions_ok hL hP
  obtain rfl : o = o' := by have := h.options.symm.trans ho; cases this; rfl
  simp only [Proxy.step] at hs
  cases hst : s.step (clientMachine L) a.toStream with
  | none => rw [hst] at hs; cases hs
  | some x =>
    obtain ⟨s', I⟩ := x
    rw [hst] at hs
    simp only at hs
    obtain ⟨U', hlink, hprog⟩ := h.server.step hL a.toStream_user hst
    have hf := FullStream.step_failures hst
    rw [if_neg hlink.alive] at hs
    rcases hprog.event with ⟨hU, hI⟩ | ⟨pre, i, e, rfl, hpre, hi, hI⟩
    · have hconv : Conversing L tc ts gc gs (T ++ I.map .ofServer) c s' o gr (V ++ []) (U ++ U') :=
        h.quiet (quiet_server hI.1)
          (by rw [clientFull_append, clientFull_server, List.append_nil, List.append_nil]; exact h.client)
          (by rw [serverFull_append, serverFull_server]; exact hlink) (by simp) hU
      rw [List.append_nil] at hconv
      by_cases hh : s'.ctl = .hung
      · rw [if_pos hh] at hs
        simp only [Option.some.injEq, Prod.mk.injEq] at hs
        obtain ⟨rfl, rfl⟩ := hs
        obtain ⟨I0, rfl⟩ := hf.last (hf.hung.1 hh)
        refine ⟨.inr ⟨_, _, _, _, _, _, hconv⟩, T ++ (I0.map .stream).map .ofServer, hcalm.append (.server (by simp)), .inr ?_⟩
        rw [List.map_append, List.append_assoc]; rfl
      rw [if_neg hh] at hs
      have hawake : Awake (I.map .ofServer) := .server fun hm => hh (hf.hung.2 hm)
      cases hr : nextResult I with
      | none =>
        have hlive := hf.live hh (by rw [hr]; simp) (by rw [hr]; simp)
        rw [hr] at hs
        simp only [Option.some.injEq, Prod.mk.injEq] at hs
        obtain ⟨rfl, rfl⟩ := hs
        exact ⟨⟨hcalm.append (.server hlive.2), hlc, hlive.1⟩, _, _, _, _, hconv⟩
      | some r =>
        rw [hr] at hs
        obtain ⟨D, c', hdrop, hstate, hctl, hD, hlink2⟩ := hconv.client.drop hlc
        have hconv2 : Conversing L tc ts gc gs (T ++ I.map .ofServer ++ D.map .ofClient) c' s' o gr (V ++ []) (U ++ U' ++ []) :=
          hconv.quiet (quiet_client (dropped_plain hD))
            (by rw [clientFull_append (T ++ _), clientFull_client, List.append_nil]; exact hlink2)
            (by rw [serverFull_append (T ++ _), serverFull_client, List.append_nil, List.append_nil]; exact hconv.server)
            (by simp) (by simp)
        rw [List.append_nil, List.append_nil, List.append_assoc] at hconv2
        cases r with
        | ok e => exact (hI.2 e hr).elim
        | error e =>
          simp only [Proxy.serverBranch, hdrop] at hs
          cases e with
          | closed =>
            simp only [handleServerEvent, List.map_nil, List.append_nil, Option.some.injEq, Prod.mk.injEq] at hs
            obtain ⟨rfl, rfl⟩ := hs
            exact ⟨.inr ⟨_, _, _, _, _, _, hconv2⟩,
              hcalm.awake.append (hawake.append (Calm.client (dropped_stream hD)).awake)⟩
          | io =>
            simp only [handleServerEvent, List.map_nil, List.append_nil, Option.some.injEq, Prod.mk.injEq] at hs
            obtain ⟨rfl, rfl⟩ := hs
            exact ⟨.inr ⟨_, _, _, _, _, _, hconv2⟩,
              hcalm.awake.append (hawake.append (Calm.client (dropped_stream hD)).awake)⟩
          | tls =>
            simp only [handleServerEvent, List.map_nil, List.append_nil, Option.some.injEq, Prod.mk.injEq] at hs
            obtain ⟨rfl, rfl⟩ := hs
            exact ⟨.inr ⟨_, _, _, _, _, _, hconv2⟩,
              hcalm.awake.append (hawake.append (Calm.client (dropped_stream hD)).awake)⟩
          | state e =>
            have hlive := hf.live hh (by rw [hr]; simp) (by rw [hr]; simp)
            simp only [handleServerEvent, List.map_nil, List.append_nil, Option.some.injEq, Prod.mk.injEq] at hs
            obtain ⟨rfl, rfl⟩ := hs
            exact ⟨⟨hcalm.append ((Calm.server hlive.2).append (.client (dropped_stream hD))), .idle hctl, hlive.1⟩, _, _, _, _, hconv2⟩
    · obtain ⟨I0, rfl, hI0, hr⟩ := hI
      have hh := hf.returned
      have hlive := hf.live hh (by rw [hr]; simp) (by rw [hr]; simp)
      rw [if_neg hh, hr] at hs
      have hq : ∀ x ∈ I0.map ProxyItem.ofServer, x.Quiet := quiet_server hI0
      have hled := h.ledger.quiet hq
      have hw : ProxyWatch.of (T ++ I0.map .ofServer) = ProxyWatch.of T := ProxyWatch.of_dull (fun x hx => (hq x hx).dull) T
      obtain ⟨D, c', hdrop, hstate, hctl, hD, hlink2⟩ := h.client.drop hlc
      have hDq : ∀ x ∈ D.map ProxyItem.ofClient, x.Quiet := quiet_client (dropped_plain hD)
      obtain ⟨ops, htr⟩ := hlink.trace
      rw [← List.append_assoc] at htr
      have hguard : Client.Guard L _ (ClientView.of (U ++ pre)) i := Client.trace_guard hL (T2 := []) htr
      obtain ⟨c1, hinv⟩ := Client.prefix_inv hL htr
      have hj : Joint (ProxyWatch.of T) (serverPhase V) (ClientView.of (U ++ pre)) :=
        h.joint.same (ClientView.of_silent hpre)
      have hitem : (I0 ++ [FullItem.stream (.returned (.ok e))]).map ProxyItem.ofServer =
        I0.map .ofServer ++ [.server (.returned (.ok e))] := by simp [ProxyItem.ofServer]
      simp only [Proxy.serverBranch, hdrop, hstate] at hs
      obtain ⟨n1, n2, n3, n4⟩ := Quiet.nothing hDq
      obtain ⟨es, hes⟩ := h.greeting
      rcases hj.event hinv.1 hguard hi with ⟨ha, hd, st, rfl⟩ | ⟨hready, hj2⟩
      · have he := handleServerEvent_panic hL hO hlink2 (h.joint.idling.mp ha) hd st
        rw [hstate] at he
        rw [he] at hs
        simp only [Option.some.injEq, Prod.mk.injEq] at hs
        obtain ⟨rfl, rfl⟩ := hs
        have hfull : T ++ ((I0 ++ [FullItem.stream (.returned (.ok (ClientEvent.idleRejected hd st)))]).map ProxyItem.ofServer ++
            (D.map ProxyItem.ofClient ++ [.panicked .unwrapFailed])) =
          (T ++ I0.map .ofServer ++ [.server (.returned (.ok (.idleRejected hd st)))] ++ D.map .ofClient) ++
            [.panicked .unwrapFailed] := by simp [ProxyItem.ofServer]
        rw [hfull]
        have hdl : ∀ x ∈ [ProxyItem.panicked .unwrapFailed], x.Dull := by
          intro x hx; rw [List.mem_singleton.mp hx]; exact ⟨nofun, nofun⟩
        have hev : serverEvents (T ++ I0.map .ofServer ++ [.server (.returned (.ok (.idleRejected hd st)))] ++ D.map .ofClient ++
            [.panicked .unwrapFailed]) = serverEvents (T ++ I0.map .ofServer) ++ [.idleRejected hd st] := by
          rw [serverEvents_append, serverEvents_append, serverEvents_append (T ++ _), n4, serverEvents_panicked,
            List.append_nil, List.append_nil]
          rfl
        refine ⟨c', s', o, gr, V, U ++ (pre ++ [i]), ⟨h.options, ?_, ?_, ?_⟩, ?_, ⟨_, rfl, ?_⟩, .inr ⟨?_, ?_, ?_, _, hd, st, hev, ?_⟩⟩
        · rw [clientFull_append, clientFull_append, clientFull_client, List.append_assoc T, ← hitem,
            clientFull_append T, clientFull_server]
          rw [clientFull_panicked, List.append_nil, List.append_nil]
          exact hlink2
        · rw [serverFull_append, serverFull_append, serverFull_client, List.append_assoc T, ← hitem,
            serverFull_append T, serverFull_server]
          rw [serverFull_panicked, List.append_nil, List.append_nil]
          exact hlink
        · rw [hev, serverEvents_append, hes, (Quiet.nothing hq).2.2.2]
          exact ⟨_, rfl⟩
        · rw [List.append_assoc T, ← hitem]
          exact ((hcalm.append (.server hlive.2)).append (.client (dropped_stream hD))).append (.panicked _)
        · intro p hp
          simp only [List.mem_append (s := T ++ I0.map ProxyItem.ofServer ++ _),
            List.mem_append (s := T ++ I0.map ProxyItem.ofServer), List.mem_singleton] at hp
          rcases hp with (hp | hp) | hp
          · exact hled.calm p hp
          · cases hp
          · exact hDq _ hp
        · rw [BrokenIdle.dull hdl, BrokenIdle.dull fun x hx => (hDq x hx).dull, BrokenIdle.snoc, hw]
          exact .inr ⟨⟨hd, st, rfl⟩, ha⟩
        · rw [UnaskedData.dull hdl, UnaskedData.dull fun x hx => (hDq x hx).dull, UnaskedData.snoc]
          rintro (hb | ⟨⟨_, hb⟩, -⟩)
          · exact hled.asked hb
          · cases hb
        · simp only [madeCalls_append (_ ++ _), dueCalls_append (_ ++ _), n1, n2, List.append_nil, hled.calls]
          rfl
        · rw [forwardedResponses_append, forwardedResponses_append, forwardedResponses_append, n3, hled.responses,
            forwardedResponses_panicked, forwardedResponses_server]
          simp
      · obtain ⟨st, calls, V', he, hcalls, hlink3, hph⟩ := handleServerEvent_ok hL hP hO hlink2 hctl hready
          (fun r hr => continuation_decoded hguard (by rw [hi, hr]))
        rw [hstate] at he
        rw [he] at hs
        simp only [Option.some.injEq, Prod.mk.injEq] at hs
        obtain ⟨rfl, rfl⟩ := hs
        have hfull : T ++ ((I0 ++ [FullItem.stream (.returned (.ok e))]).map ProxyItem.ofServer ++
            (D.map ProxyItem.ofClient ++ calls.map fun op => ProxyItem.client (.user op))) =
          T ++ I0.map .ofServer ++ [.server (.returned (.ok e))] ++ D.map .ofClient ++ clientCalls calls := by
          simp [clientCalls, ProxyItem.ofServer]
        rw [hfull]
        refine ⟨⟨?_, .idle hctl, hlive.1⟩, o, gr, V ++ V', U ++ (pre ++ [i]), ⟨h.options, ?_, ?_, ?_⟩, ?_, ?_⟩
        · rw [List.append_assoc T, ← hitem]
          exact ((hcalm.append (.server hlive.2)).append (.client (dropped_stream hD))).append (.clientCalls _)
        · rw [clientFull_append, clientFull_append, clientFull_client, List.append_assoc T, ← hitem,
            clientFull_append T, clientFull_server, (clientCalls_full calls).1, List.append_nil]
          exact hlink3
        · rw [serverFull_append, serverFull_append, serverFull_client, List.append_assoc T, ← hitem,
            serverFull_append T, serverFull_server, (clientCalls_full calls).2, List.append_nil, List.append_nil]
          exact hlink
        · rw [serverEvents_append, serverEvents_append, serverEvents_append, serverEvents_append, n4,
            (Quiet.nothing hq).2.2.2, (clientCalls_nothing calls).2.2.2, hes]
          exact ⟨_, rfl⟩
        · refine hled.server hDq hcalls fun hd st hx => ?_
          subst hx
          rw [hw]
          have hne : serverPhase V ≠ .idle := by rw [show serverPhase V = .idlePending from hready]; simp
          cases hb : (ProxyWatch.of T).idling with
          | false => rfl
          | true => exact (hne (h.joint.idling.mp hb)).elim
        · rw [ProxyWatch.of_dull (clientCalls_dull calls), ProxyWatch.of_dull fun x hx => (hDq x hx).dull,
            ProxyWatch.of_snoc, hw, ← List.append_assoc, ClientView.of_snoc, hph]
          exact hj2

/-- Before the greeting only the greeting is reported. -/
theorem first_event (hL : L.Lawful) {o : ClientOptions} {ops : List ClientOp} {c : Client} {U : List CItem} {i : CItem}
    {e : ClientEvent} (h : (Client.new gc o).trace L ops = .ok (c, U ++ [i])) (hU : U.filterMap CItem.event? = [])
    (hi : i.event? = some e) : ∃ g, e = .greetingReceived g := by
  have hg : Client.Guard L _ (ClientView.of U) i := Client.trace_guard hL (T2 := []) h
  have hn : (ClientView.of U).greeted = false := by
    cases hb : (ClientView.of U).greeted with
    | false => rfl
    | true =>
      obtain ⟨j, hj, g, hjg⟩ := (ClientView.of_greeted U).mp hb
      have : ClientEvent.greetingReceived g ∈ U.filterMap CItem.event? := List.mem_filterMap.mpr ⟨j, hj, hjg⟩
      rw [hU] at this; cases this
  cases i with
  | sent e' => have := hn.symm.trans hg.1; cases this
  | received w e' =>
    cases hi
    obtain ⟨-, -, hg⟩ := hg
    rcases hg with ⟨-, g, rfl, -⟩ | ⟨hg, -⟩
    · exact ⟨g, rfl⟩
    · rw [hn] at hg; cases hg
  | _ => cases hi

theorem Proxy.step_greeting (hL : L.Lawful) (hP : L.Proxyable) {T items : List ProxyItem}
    {t : Option (Tls K)} {s : FullStream K Client} {a : IoAct} {p : Proxy K} (h : Proxy.Inv L tc ts gc gs T (.greeting t s))
    (hs : Proxy.step L gs (.greeting t s) (.server a) = some (p, items)) : p.Inv L tc ts gc gs (T ++ items) := by
  obtain ⟨⟨rfl, hcalm, hls⟩, U, h⟩ := h
  obtain ⟨o, ho, hO⟩ := proxyServerOptions_ok hL hP
  simp only [Proxy.step] at hs
  cases hst : s.step (clientMachine L) a.toStream with
  | none => rw [hst] at hs; cases hs
  | some x =>
    obtain ⟨s', I⟩ := x
    rw [hst] at hs
    simp only at hs
    obtain ⟨U', hlink, hprog⟩ := h.server.step hL a.toStream_user hst
    have hf := FullStream.step_failures hst
    rw [if_neg hlink.alive] at hs
    rcases hprog.event with ⟨hU, hI⟩ | ⟨pre, i, e, rfl, hpre, hi, hI⟩
    · have hq := quiet_server hI.1
      have hgr : Greeted L ts gc (T ++ I.map .ofServer) s' (U ++ U') := by
        refine ⟨?_, ?_, ?_, ?_, h.ledger.quiet hq, ?_⟩
        · rw [clientFull_append, clientFull_server, h.client]; rfl
        · rw [serverFull_append, serverFull_server]; exact hlink
        · rw [serverEvents_append, (Quiet.nothing hq).2.2.2, h.events]; rfl
        · rw [serverSide_append, serverSide_server, streamCalls_append, h.calls, Plain.calls hI.1]; rfl
        · rw [ProxyWatch.of_dull fun x hx => (hq x hx).dull, h.watch]
      by_cases hh : s'.ctl = .hung
      · rw [if_pos hh] at hs
        simp only [Option.some.injEq, Prod.mk.injEq] at hs
        obtain ⟨rfl, rfl⟩ := hs
        obtain ⟨I0, rfl⟩ := hf.last (hf.hung.1 hh)
        refine ⟨.inl ⟨_, _, hgr⟩, T ++ (I0.map .stream).map .ofServer, hcalm.append (.server (by simp)), .inr ?_⟩
        rw [List.map_append, List.append_assoc]; rfl
      rw [if_neg hh] at hs
      have hawake : Awake (I.map .ofServer) := .server fun hm => hh (hf.hung.2 hm)
      cases hr : nextResult I with
      | none =>
        have hlive := hf.live hh (by rw [hr]; simp) (by rw [hr]; simp)
        rw [hr] at hs
        simp only [Option.some.injEq, Prod.mk.injEq] at hs
        obtain ⟨rfl, rfl⟩ := hs
        exact ⟨⟨rfl, hcalm.append (.server hlive.2), hlive.1⟩, _, hgr⟩
      | some r =>
        rw [hr] at hs
        cases r with
        | ok e => exact (hI.2 e hr).elim
        | error e =>
          simp only [Proxy.afterGreeting, Option.some.injEq, Prod.mk.injEq] at hs
          obtain ⟨rfl, rfl⟩ := hs
          exact ⟨.inl ⟨_, _, hgr⟩, hcalm.awake.append hawake⟩
    · obtain ⟨I0, rfl, hI0, hr⟩ := hI
      obtain ⟨ops, htr⟩ := hlink.trace
      have htr' := htr
      rw [← List.append_assoc] at htr'
      obtain ⟨gr, rfl⟩ := first_event hL htr'
        (by rw [List.filterMap_append, silent_events hpre, h.server.events, streamPart_serverFull, show streamEvents (serverSide T) = [] from h.events]; rfl) hi
      have hh := hf.returned
      have hlive := hf.live hh (by rw [hr]; simp) (by rw [hr]; simp)
      rw [if_neg hh, hr] at hs
      simp only [Proxy.afterGreeting, ho, Option.some.injEq, Prod.mk.injEq] at hs
      obtain ⟨rfl, rfl⟩ := hs
      have hq : ∀ x ∈ I0.map ProxyItem.ofServer, x.Quiet := quiet_server hI0
      have hitem : (I0 ++ [FullItem.stream (.returned (.ok (ClientEvent.greetingReceived gr)))]).map ProxyItem.ofServer =
        I0.map .ofServer ++ [.server (.returned (.ok (.greetingReceived gr)))] := by simp [ProxyItem.ofServer]
      refine ⟨⟨hcalm.append (.server hlive.2), by constructor <;> simp [FullStream.new_ctl], hlive.1⟩, o, gr, [], U ++ (pre ++ [i]), ⟨ho, ?_, ?_, ?_⟩, ?_, ?_⟩
      · rw [clientFull_append, clientFull_server, h.client, filterCapabilitiesInGreeting_eq]
        exact .start L _ gs o gr.restrict
      · rw [serverFull_append, serverFull_server]; exact hlink
      · rw [serverEvents_append, h.events, hitem, serverEvents_append, (Quiet.nothing hq).2.2.2]
        exact ⟨[], rfl⟩
      · rw [hitem, ← List.append_assoc]
        have := (h.ledger.quiet hq).server (D := []) (calls := []) (e := .greetingReceived gr) (by simp) rfl nofun
        simpa [clientCalls] using this
      · have hw : ProxyWatch.of (T ++ (I0 ++ [FullItem.stream (.returned (.ok (ClientEvent.greetingReceived gr)))]).map ProxyItem.ofServer) =
            ⟨false, false⟩ := by
          rw [hitem, ← List.append_assoc, ProxyWatch.of_snoc, ProxyWatch.of_dull fun x hx => (hq x hx).dull, h.watch]
          rfl
        rw [hw]
        have hS := hlink.sendOk hL
        have hen : clientEnqueued (U ++ (pre ++ [i])) = [] := by
          have := hlink.enqueued
          rw [streamPart_append, streamPart_append, streamPart_one, streamCalls_append, streamPart_serverFull, h.calls, streamCalls_append, Plain.calls hI0] at this
          exact List.map_eq_nil_iff.mp this
        have hrem : (ClientView.of (U ++ (pre ++ [i]))).remaining = [] := by
          rw [ClientView.remaining, (ClientView.of_fields _).2.2.1, hen, List.drop_nil]
        have hf := hS.fresh hrem
        refine ⟨?_, ?_, ⟨nofun, nofun⟩⟩
        · show Settled _ (ClientView.remaining _)
          rw [hrem]; trivial
        · rw [hf.2.2.2.1, hf.2.2.2.2.1]
          exact ⟨nofun, nofun⟩

/-- Every step preserves the invariant. -/
theorem Proxy.step_inv (hL : L.Lawful) (hP : L.Proxyable) {T items : List ProxyItem} {p p' : Proxy K} {a : ProxyAct}
    (h : p.Inv L tc ts gc gs T) (hs : p.step L gs a = some (p', items)) : p'.Inv L tc ts gc gs (T ++ items) := by
  cases p with
  | greeting t s =>
    cases a with
    | client a => cases hs
    | server a => exact Proxy.step_greeting hL hP h hs
  | conversation c s =>
    cases a with
    | client a => exact Proxy.step_client hL hP h hs
    | server a => exact Proxy.step_server hL hP h hs
  | over => cases a <;> cases hs
  | hung => cases a <;> cases hs
  | dead => cases a <;> cases hs

theorem Proxy.run_inv_from (hL : L.Lawful) (hP : L.Proxyable) {T items : List ProxyItem} {p p' : Proxy K} {as : List ProxyAct}
    (h : p.Inv L tc ts gc gs T) (hs : p.run L gs as = some (p', items)) : p'.Inv L tc ts gc gs (T ++ items) := by
  induction as generalizing p T items with
  | nil =>
    simp only [Proxy.run, Option.some.injEq, Prod.mk.injEq] at hs
    obtain ⟨rfl, rfl⟩ := hs
    rw [List.append_nil]; exact h
  | cons a as ih =>
    simp only [Proxy.run] at hs
    cases h1 : p.step L gs a with
    | none => rw [h1] at hs; cases hs
    | some x =>
      obtain ⟨p1, I⟩ := x
      rw [h1] at hs
      simp only at hs
      cases h2 : p1.run L gs as with
      | none => rw [h2] at hs; cases hs
      | some y =>
        obtain ⟨p2, J⟩ := y
        rw [h2] at hs
        simp only [Option.some.injEq, Prod.mk.injEq] at hs
        obtain ⟨rfl, rfl⟩ := hs
        rw [← List.append_assoc]
        exact ih (Proxy.step_inv hL hP h h1) h2

/-- The invariant holds after every run. -/
theorem Proxy.run_inv (hL : L.Lawful) (hP : L.Proxyable) {T : List ProxyItem} {p : Proxy K} {as : List ProxyAct}
    (hs : (Proxy.start tc ts gc).run L gs as = some (p, T)) : p.Inv L tc ts gc gs T := by
  have := Proxy.run_inv_from (gs := gs) hL hP (Proxy.start_inv (L := L) (tc := tc) (ts := ts) (gc := gc)) hs
  simpa using this

end ImapFlow
