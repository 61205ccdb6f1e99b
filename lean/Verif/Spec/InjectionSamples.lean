import Verif.Spec.Imap
import Verif.Spec.ProxySamples
import Verif.Spec.StreamReject

/-!
# Mails whose content looks like a command

The commands are encoded in the syntax of IMAP (`Spec/Imap.lean`).  The user of the client appends a mail; its content is not
chosen by the user of the client.
-/

namespace ImapFlow.InjectionSample

open ClientSample (g)

/-- Options of a server with the given limits. -/
def options (maxLiteral maxCommand : Nat) : ServerOptions :=
  { crlfRelaxed := false, maxLiteralSize := maxLiteral, maxCommandSize := maxCommand
    literalAcceptCcr := .basic none (ascii "go on"), literalRejectCcr := .basic none (ascii "too long") }

/-- The greeting. -/
def greeting : Greeting := ⟨.ok, none, ascii "hi"⟩

/-- What is in the mails. -/
def injected : Command := ⟨ascii "B2", .other (ascii "DELETE archive")⟩

/-- A mail in a literal that is not synchronizing. -/
def mail : Command := ⟨ascii "A1", .other (ascii "APPEND inbox {19+}\r\nB2 DELETE archive\r\n")⟩

/-- A mail in a synchronizing literal after another literal. -/
def mail' : Command :=
  ⟨ascii "A1", .other (ascii "APPEND {5}\r\ninbox {29}\r\nsome text B2 DELETE archive\r\n")⟩

/-- Two streams without TLS. -/
def start (o : ServerOptions) : StreamNet Nat := .new none none g .default g o greeting

/-- The mail is sent at once. -/
def acts : List StreamNetAct :=
  [.client (.user (.enqueueCommand mail)), .client .callNext, .server .callNext, .server (.write 9), .server .callNext,
   .client (.read 9), .client .callNext, .client (.write 44), .client .callNext, .server (.read 44), .server .callNext]

/-- The mail is sent when the server has accepted both literals. -/
def acts' : List StreamNetAct :=
  [.client (.user (.enqueueCommand mail')), .client .callNext, .server .callNext, .server (.write 9), .server .callNext,
   .client (.read 9), .client .callNext, .client (.write 15), .server (.read 15), .server (.write 9), .client (.read 9),
   .client (.write 12), .server (.read 12), .server (.write 9), .client (.read 9), .client (.write 31), .client .callNext,
   .server (.read 31), .server .callNext]

/-- What the users did and were told. -/
def Facts (c : Command) (e : ServerError) (G : List StreamNetItem) : Prop :=
  (.client .refused ∉ G ∧ .server .refused ∉ G) ∧ (atClient G).filterMap StreamItem.enqueued? = [c] ∧
  (atServer G).filterMap StreamItem.response? = [] ∧
  (events (atClient G)).filterMap ClientEvent.sentCommand? = [c] ∧ verdicts (atServer G) = [.error e, .ok injected]

instance (c : Command) (e : ServerError) (G : List StreamNetItem) : Decidable (Facts c e G) := by unfold Facts; infer_instance

theorem of_facts {P : List StreamNetItem → Prop} [DecidablePred P] {x : Option (StreamNet Nat × List StreamNetItem)}
    (h : (x.map fun r => decide (P r.2)) = some true) : ∃ n G, x = some (n, G) ∧ P G := by
  cases x with
  | none => cases h
  | some r => exact ⟨r.1, r.2, rfl, by simpa using h⟩

theorem run : ∃ n G, (start (options 18 100)).run Imap.lib acts = some (n, G) ∧
    Facts mail (.literalTooLong (ascii "A1 APPEND inbox {19+}\r\n")) G := of_facts (by decide +kernel)

theorem run' : ∃ n G, (start (options 29 37)).run Imap.lib acts' = some (n, G) ∧
    Facts mail' (.commandTooLong (ascii "A1 APPEND {5}\r\ninbox {29}\r\nsome text ")) G := of_facts (by decide +kernel)

theorem built (a b : Nat) : ServerOptions.Built Imap.lib (options a b) :=
  have h1 : ServerOptions.default Imap.lib = .ok { options 26214400 26279936 with
      literalAcceptCcr := .basic none (ascii "..."), literalRejectCcr := .basic none (ascii "...") } := by decide +kernel
  have h2 : ServerOptions.Built Imap.lib { options 26214400 26279936 with literalAcceptCcr := .basic none (ascii "...") } :=
    .reject (text := ascii "too long") (r := .ok ()) (.default h1) (by decide +kernel)
  have h3 : ServerOptions.Built Imap.lib (options 26214400 26279936) :=
    .accept (text := ascii "go on") (r := .ok ()) h2 (by decide +kernel)
  .maxCommandSize b (.maxLiteralSize a h3)

theorem line {b : Bytes} (h : LF ∉ b) : IsLine (b ++ [CR, LF]) ∧ CrlfOk false (b ++ [CR, LF]) := by
  refine ⟨⟨b ++ [CR], by simp, ?_⟩, .inr ⟨b, rfl⟩⟩
  simp only [List.mem_append, List.mem_singleton, not_or]
  exact ⟨h, by decide⟩

theorem mail_roundTrip (a b : Nat) : mail.RoundTrip Imap.lib (options a b) := by
  have e : Imap.lib.encodeCommand mail = [.line (ascii "A1 APPEND inbox {19+}" ++ [CR, LF]),
      .literal (ascii "B2 DELETE archive\r\n") .nonSync, .line ([] ++ [CR, LF])] := by decide +kernel
  have l1 := line (b := ascii "A1 APPEND inbox {19+}") (by decide +kernel)
  have l2 := line (b := []) (by decide)
  show CommandEncodes Imap.lib false mail [] _
  rw [e]
  exact .literal l1.1 l1.2 (by decide +kernel) (.last l2.1 l2.2 (by decide +kernel))

theorem mail_roundTrip' (a b : Nat) : mail'.RoundTrip Imap.lib (options a b) := by
  have e : Imap.lib.encodeCommand mail' = [.line (ascii "A1 APPEND {5}" ++ [CR, LF]), .literal (ascii "inbox") .sync,
      .line (ascii " {29}" ++ [CR, LF]), .literal (ascii "some text B2 DELETE archive\r\n") .sync, .line ([] ++ [CR, LF])] := by
    decide +kernel
  have l1 := line (b := ascii "A1 APPEND {5}") (by decide +kernel)
  have l2 := line (b := ascii " {29}") (by decide +kernel)
  have l3 := line (b := []) (by decide)
  show CommandEncodes Imap.lib false mail' [] _
  rw [e]
  exact .literal l1.1 l1.2 (by decide +kernel) (.literal l2.1 l2.2 (by decide +kernel) (.last l3.1 l3.2 (by decide +kernel)))

/-! ## With the proxy and its limits -/

/-- The line before a mail that is one byte too long for the proxy. -/
def announcement : Bytes := ascii "A1 APPEND inbox {26214401+}\r\n"

/-- The beginning of this mail. -/
def beginning : Bytes := ascii "B2 DELETE archive\r\n"

/-- The command with this mail. -/
def largeMail (x : Bytes) : Command := ⟨ascii "A1", .other (ascii "APPEND inbox {26214401+}\r\n" ++ beginning ++ x)⟩

/-- The user of the client sends this command. -/
def clientOps (x : Bytes) : List ClientOp :=
  [.enqueueInput (ascii "* OK hi\r\n"), .next, .enqueueCommand (largeMail x), .next]

/-- The proxy reads the beginning of what the client sends. -/
def proxyActs : List ProxyAct :=
  [.server .poll, .server (.read (ascii "* OK hi\r\n")), .server .poll, .client .poll, .client (.write 9), .client .poll,
   .client (.read announcement), .client .poll, .client (.read beginning), .server .poll, .server (.write 19)]

set_option synthInstance.maxSize 4096 in
theorem proxy_run : ∃ p T, (Proxy.start (K := Nat) none none g).run Imap.lib ProxySample.gs proxyActs = some (p, T) ∧
    streamRead (clientSide T) = announcement ++ beginning ∧ receivedCommands T = [injected] ∧
    streamWrote (serverSide T) = wire (Imap.lib.encodeCommand injected) := by
  have h : ((Proxy.start (K := Nat) none none g).run Imap.lib ProxySample.gs proxyActs).map (fun x =>
      (streamRead (clientSide x.2), receivedCommands x.2, streamWrote (serverSide x.2))) =
      some (announcement ++ beginning, [injected], wire (Imap.lib.encodeCommand injected)) := by decide +kernel
  rw [Option.map_eq_some_iff] at h
  obtain ⟨⟨p, T⟩, h1, h2⟩ := h
  simp only [Prod.mk.injEq] at h2
  exact ⟨p, T, h1, h2.1, h2.2.1, h2.2.2⟩

/-- The mail is encoded as a literal that is not synchronizing. -/
theorem largeMail_encoded (x : Bytes) (hx : x.length = 26214382) : Imap.lib.encodeCommand (largeMail x) =
    [.line announcement, .literal (beginning ++ x) .nonSync, .line [CR, LF]] := by
  have hb : beginning.length = 19 := by decide +kernel
  have h1 : Toy.splitLine (announcement ++ (beginning ++ x ++ [CR, LF])) = some (announcement, beginning ++ x ++ [CR, LF]) :=
    Toy.splitLine_ext (i := announcement) (rest := []) (by decide +kernel) _
  have h2 : Imap.announced announcement = some (26214401, .nonSync) := by decide +kernel
  have h3 : ¬ (beginning ++ x ++ [CR, LF]).length < 26214401 := by simp [hx, hb]
  have h4 : (beginning ++ x ++ [CR, LF]).drop 26214401 = [CR, LF] := by
    rw [List.drop_append_of_le_length (by simp [hx, hb]), List.drop_eq_nil_of_le (by simp [hx, hb])]
    rfl
  have h5 : (beginning ++ x ++ [CR, LF]).take 26214401 = beginning ++ x := by
    rw [List.take_append_of_le_length (by simp [hx, hb]), List.take_of_length_le (by simp [hx, hb])]
  have h6 : Imap.parse Imap.announced [CR, LF] = .ok ([], [[CR, LF]]) := by decide +kernel
  have e : Imap.ln (ascii "A1" ++ 32 :: (ascii "APPEND inbox {26214401+}\r\n" ++ beginning ++ x)) =
      announcement ++ (beginning ++ x ++ [CR, LF]) := by
    have : announcement = ascii "A1" ++ 32 :: ascii "APPEND inbox {26214401+}\r\n" := by decide +kernel
    rw [this]
    simp [Imap.ln]
  show Imap.toFragments Imap.announced (Imap.ln (ascii "A1" ++ 32 :: (ascii "APPEND inbox {26214401+}\r\n" ++ beginning ++ x))) = _
  rw [e]
  have hp : Imap.parse Imap.announced (announcement ++ (beginning ++ x ++ [CR, LF])) =
      .ok ([], [announcement, beginning ++ x, [CR, LF]]) := by
    rw [Imap.parse]
    split
    · rename_i h; rw [h1] at h; cases h
    · rename_i line rest h
      rw [h1] at h
      cases h
      simp only [h2, h3, h4, h5, h6, if_false]
      simp
  simp only [Imap.toFragments, hp, Imap.fragments, h2]

end ImapFlow.InjectionSample
