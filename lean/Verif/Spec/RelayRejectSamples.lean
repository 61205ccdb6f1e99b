import Verif.Spec.RelayReject
import Verif.Spec.RelayDialogueSamples
import Verif.Spec.StreamRejectSamples

/-!
# A concrete run through the proxy in which the server rejects a literal

Two runs with the record layer `toyLayer` and without TLS: a command with two literals, one whose second literal is too
long for the server (but not for the proxy), and one without literals; data and a BAD of the user of the server between
them.
-/

namespace ImapFlow.RelayRejectSample

open ClientSample (str g)
open ServerSample (options)
open NetSample (cmdA cmdC cmdX)
open RelaySample (start plainStart greeting filtered caps fewerCaps proxyOptions)
open RelayDialogueSample (play Still)
open StreamRejectSample (politeOk of_politeOk)

/-- What the users do. -/
def script : List (List RelayAct) :=
  [[.client (.user (.enqueueCommand cmdA)), .server (.user (.enqueueData caps))],
   [.server .drop, .client .drop, .client (.user (.enqueueCommand cmdX)), .client (.user (.enqueueCommand cmdC))],
   [.server .drop, .server (.user (.enqueueStatus (.tagged (str "A") ⟨.bad, none, str "t"⟩)))]]

/-- The responses of the user of the server. -/
def said : List Response := [.data caps, .status (.tagged (str "A") ⟨.bad, none, str "t"⟩)]

/-- What the users do in these runs. -/
def Users (R : List RelayItem) : Prop :=
  (.client .refused ∉ R ∧ .server .refused ∉ R ∧ .proxy (.clientTls .refused) ∉ R ∧ .proxy (.serverTls .refused) ∉ R) ∧
  relayedCommands R = [cmdA, cmdX, cmdC] ∧ relayedResponses R = said ∧ politeOk [] (streamPart (relayServer R)) = true

instance : DecidablePred Users := fun _ => by unfold Users; infer_instance

theorem options_text : proxyOptions.literalRejectText = .ok (str "proxy: Literal rejected by proxy") ∧
    acceptReply Toy.lib proxyOptions .sync =
      [.response none (.continuationRequest (.basic none (str "proxy: Literal accepted by proxy")))] := by
  constructor <;> decide +kernel

theorem line_response {r : Response} (b : Bytes) (h1 : Toy.lib.decodeResponse (b ++ [CR, LF]) = .ok ([], r)) (h2 : LF ∉ b)
    (h3 : wire (Toy.lib.encodeResponse r) = b ++ [CR, LF]) (h : Option RawHandle) :
    (ServerMessage.response h r).RoundTrip Toy.lib .default := by
  show IsMessage (responseFraming Toy.lib false) (wire (Toy.lib.encodeResponse r)) r
  rw [h3]
  refine NetSample.line_message ?_ h2
  simp only [responseFraming, h1]

/-- The hypotheses of C74. -/
theorem Users.mixed {R : List RelayItem} (h : Users R) : MixedRelay Toy.lib .default proxyOptions options greeting R := by
  obtain ⟨-, h1, h2, h3⟩ := h
  have ha : admittedCommands Toy.lib proxyOptions R = [cmdA, cmdX, cmdC] := by
    rw [admittedCommands, h1]
    decide +kernel
  have hm := NetSample.mixed_commands (E := [(ClientSample.hA, cmdA), (ClientSample.hA, cmdX), (ClientSample.hA, cmdC)]) rfl
  have mem : ∀ {P : Command → Prop}, P cmdA → P cmdX → P cmdC → ∀ c ∈ [cmdA, cmdX, cmdC], P c := by
    intro P p1 p2 p3 c hc
    simp only [List.mem_cons, List.not_mem_nil, or_false] at hc
    rcases hc with rfl | rfl | rfl <;> assumption
  have mem' : ∀ {P : Command → Prop}, (∀ x ∈ [(ClientSample.hA, cmdA), (ClientSample.hA, cmdX), (ClientSample.hA, cmdC)],
      P x.2) → ∀ c ∈ [cmdA, cmdX, cmdC], P c := fun hP =>
    mem (hP (ClientSample.hA, cmdA) (by simp)) (hP (ClientSample.hA, cmdX) (by simp)) (hP (ClientSample.hA, cmdC) (by simp))
  have limits : options.maxLiteralSize ≤ proxyOptions.maxLiteralSize ∧ proxyOptions.crlfRelaxed = options.crlfRelaxed := by
    decide +kernel
  have sizes : ∀ c ∈ [cmdA, cmdX, cmdC], (wire (c.transmitted Toy.lib proxyOptions)).length ≤ proxyOptions.maxCommandSize := by
    decide +kernel
  have rt : ∀ c ∈ [cmdA, cmdX, cmdC], c.RoundTrip Toy.lib options := mem' hm.roundTrip
  have sync : ∀ c ∈ [cmdA, cmdX, cmdC], ∀ d, .literal d .nonSync ∈ Toy.lib.encodeCommand c → d.length ≤ options.maxLiteralSize :=
    mem' hm.sync
  have rejected : ∀ c ∈ [cmdA, cmdX, cmdC], ∀ h, (ServerMessage.response h (.status (.tagged c.tag
      ⟨.bad, none, str "no"⟩))).RoundTrip Toy.lib .default :=
    mem (line_response (str "bA no") (by decide +kernel) (by decide +kernel) (by decide +kernel))
      (line_response (str "bX no") (by decide +kernel) (by decide +kernel) (by decide +kernel))
      (line_response (str "bC no") (by decide +kernel) (by decide +kernel) (by decide +kernel))
  have refused : ∀ c ∈ [cmdA, cmdX, cmdC], ∀ h, (ServerMessage.response h (.status (.tagged c.tag
      ⟨.bad, none, str "proxy: Literal rejected by proxy"⟩))).RoundTrip Toy.lib .default :=
    mem (line_response (str "bA proxy: Literal rejected by proxy") (by decide +kernel) (by decide +kernel) (by decide +kernel))
      (line_response (str "bX proxy: Literal rejected by proxy") (by decide +kernel) (by decide +kernel) (by decide +kernel))
      (line_response (str "bC proxy: Literal rejected by proxy") (by decide +kernel) (by decide +kernel) (by decide +kernel))
  refine ⟨?_, ⟨?_, ?_⟩, ⟨?_, ?_⟩, ⟨?_, ?_⟩, ?_, ?_, ?_, ?_, ?_, fun mode => ⟨?_, ?_⟩, fun mode => ⟨?_, ?_⟩, ?_⟩
  · rw [h1]; exact mem' hm.regular
  · rw [h1]
    intro c hc
    have := rt c hc
    unfold Command.RoundTrip at this ⊢
    rwa [limits.2]
  · rw [ha]; exact rt
  · rw [h1]; exact sizes
  · rw [ha]; exact mem' hm.size
  · rw [h1]; exact fun c hc d hd => Nat.le_trans (sync c hc d hd) limits.1
  · rw [ha]; exact sync
  · rw [h1]; exact hm.tags
  · rw [h2]; simp [said]
  · intro S1 i S2 tag body hS hi hb
    simpa using of_politeOk h3 hS hi hb
  · exact ⟨NetSample.line_message (F := greetingFraming Toy.lib false) (b := str "G[CRSQ]hi") (by decide +kernel) (by decide +kernel),
      NetSample.line_message (F := greetingFraming Toy.lib false) (b := str "G[CR]hi") (by decide +kernel) (by decide +kernel)⟩
  · rw [h2]
    intro r hr h
    simp only [said, List.mem_cons, List.not_mem_nil, or_false] at hr
    rcases hr with rfl | rfl
    · exact ⟨line_response (str "CRIQ") (by decide +kernel) (by decide +kernel) (by decide +kernel) h,
        line_response (str "CRI") (by decide +kernel) (by decide +kernel) (by decide +kernel) h⟩
    · exact ⟨line_response (str "bA t") (by decide +kernel) (by decide +kernel) (by decide +kernel) h,
        line_response (str "bA t") (by decide +kernel) (by decide +kernel) (by decide +kernel) h⟩
  · exact fun m hm => StreamNetSample.accept_message mode m hm
  · intro m hm
    cases mode with
    | nonSync => cases hm
    | sync =>
      rw [options_text.2] at hm
      cases List.mem_singleton.1 hm
      exact line_response (str "+proxy: Literal accepted by proxy") (by decide +kernel) (by decide +kernel) (by decide +kernel) _
  · rw [ha]
    intro c hc m hm
    cases mode with
    | nonSync => cases hm
    | sync => cases List.mem_singleton.1 (show m ∈ [_] from hm); exact rejected c hc _
  · rw [h1]
    intro c hc m hm
    cases mode with
    | nonSync => cases hm
    | sync =>
      rw [rejectReply, options_text.1] at hm
      cases List.mem_singleton.1 (show m ∈ [_] from hm)
      exact refused c hc _
  · rw [ha]
    exact mem (line_response (str "bA proxy: Command rejected by server") (by decide +kernel) (by decide +kernel) (by decide +kernel))
      (line_response (str "bX proxy: Command rejected by server") (by decide +kernel) (by decide +kernel) (by decide +kernel))
      (line_response (str "bC proxy: Command rejected by server") (by decide +kernel) (by decide +kernel) (by decide +kernel))

/-- What the users get. -/
def Told (R : List RelayItem) : Prop :=
  verdicts (streamPart (relayServer R)) = [.ok cmdA, .error (.literalTooLong (wire (cmdX.transmitted Toy.lib options))), .ok cmdC] ∧
  (events (streamPart (relayClient R))).filter ClientEvent.isTerminal =
    [.commandSent ClientSample.hA cmdA, .commandSent ClientSample.hB cmdX, .commandSent ClientSample.hC cmdC] ∧
  (events (streamPart (relayClient R))).filterMap ClientEvent.told? = [.data fewerCaps, cmdX.rejection,
    .status (.tagged (str "A") ⟨.bad, none, str "t"⟩)]

instance : DecidablePred Told := fun _ => by unfold Told; infer_instance

theorem of_checks {x : Option (Relay Nat × List RelayItem)}
    (h : (x.map fun r => decide (Still r.1 ∧ Users r.2 ∧ Told r.2)) = some true) :
    ∃ r R, x = some (r, R) ∧ r.Waiting ∧ Users R ∧ Told R := by
  cases x with
  | none => cases h
  | some r =>
    obtain ⟨h1, h2⟩ := of_decide_eq_true (p := Still r.1 ∧ Users r.2 ∧ Told r.2) (by simpa using h)
    exact ⟨r.1, r.2, rfl, h1.waiting, h2⟩

theorem tls_run : ∃ r R, start.run Toy.lib g (play start script) = some (r, R) ∧ r.Waiting ∧ Users R ∧ Told R :=
  of_checks (by decide +kernel)

theorem plain_run : ∃ r R, plainStart.run Toy.lib g (play plainStart script) = some (r, R) ∧ r.Waiting ∧ Users R ∧ Told R :=
  of_checks (by decide +kernel)

/-- What happens if then the server closes its connection. -/
theorem end_run : ∃ r R, start.run Toy.lib g (play start script ++ [.proxyServer (.read 20)]) = some (r, R) ∧ Users R ∧
    r.proxy = .over := by
  have h : ((start.run Toy.lib g (play start script ++ [.proxyServer (.read 20)])).map fun r =>
      decide (RelaySample.ended r.1.proxy = true ∧ Users r.2)) = some true := by decide +kernel
  cases hx : start.run Toy.lib g (play start script ++ [.proxyServer (.read 20)]) with
  | none => rw [hx] at h; cases h
  | some r =>
    rw [hx] at h
    obtain ⟨h1, h2⟩ := of_decide_eq_true (p := RelaySample.ended r.1.proxy = true ∧ Users r.2) (by simpa using h)
    refine ⟨r.1, r.2, rfl, h2, ?_⟩
    cases hp : r.1.proxy with
    | over => rfl
    | _ => rw [hp] at h1; cases h1

end ImapFlow.RelayRejectSample
