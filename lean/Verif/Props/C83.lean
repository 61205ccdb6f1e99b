import Verif.Proofs.Injection
import Verif.Props.C73
import Verif.Props.C74

/-!
# C83: the server is told only commands that the user of the client enqueued

The content of a literal is often not chosen by the user of the client (an appended mail, for example), so it must not become a
command.  False of the code, also if the user of the server does nothing:

* If a literal that is not synchronizing is too long, the server discards only its announcement (`/repo/src/server.rs:270-284`, with a
  TODO), and its content is read as commands (`C83_literal`).  In the same way the proxy passes on commands that are in a mail of
  more than 25 MiB to the server (`C83_proxy`).
* If all literals of a command are short enough but the command is longer than `max_command_size`, the server accepts its literals and
  then gives up in the middle of one (`C83_size`).

In both cases the user of the client is told that their command was sent.  If literals that are too long are synchronizing and
commands respect `max_command_size`, the server is told only commands that were enqueued (`C83_partial`), also through the proxy
(`C83_proxy_partial`).
-/

namespace ImapFlow

open InjectionSample

/-- A literal that is too long: its content is returned to the user of the server as a command.  The command is regular, is decoded to
itself, and fits into `max_command_size`; the user of the server sends nothing. -/
theorem C83_literal : ∃ (os : ServerOptions) (gr : Greeting) (as : List StreamNetAct) (sn : StreamNet Nat) (G : List StreamNetItem)
    (c c' : Command) (e : ServerError), ServerOptions.Built Imap.lib os ∧
    (StreamNet.new none none ClientSample.g .default ClientSample.g os gr).run Imap.lib as = some (sn, G) ∧
    (atServer G).filterMap StreamItem.response? = [] ∧
    (c.isRegular = true ∧ c.RoundTrip Imap.lib os ∧ (wire (Imap.lib.encodeCommand c)).length ≤ os.maxCommandSize) ∧
    (atClient G).filterMap StreamItem.enqueued? = [c] ∧ (events (atClient G)).filterMap ClientEvent.sentCommand? = [c] ∧
    verdicts (atServer G) = [.error e, .ok c'] ∧ c'.tag ≠ c.tag := by
  obtain ⟨n, G, h1, -, h2, h3, h4, h5⟩ := run
  exact ⟨_, _, _, n, G, mail, injected, _, built 18 100, h1, h3, ⟨rfl, mail_roundTrip 18 100, by decide +kernel⟩, h2, h4, h5,
    by decide +kernel⟩

/-- A command that is too long: a part of a literal is returned to the user of the server as a command.  All literals are
synchronizing, none of them is too long, and each of them alone would fit into `max_command_size`. -/
theorem C83_size : ∃ (os : ServerOptions) (gr : Greeting) (as : List StreamNetAct) (sn : StreamNet Nat) (G : List StreamNetItem)
    (c c' : Command) (e : ServerError), ServerOptions.Built Imap.lib os ∧ os.maxLiteralSize < os.maxCommandSize ∧
    (StreamNet.new none none ClientSample.g .default ClientSample.g os gr).run Imap.lib as = some (sn, G) ∧
    (atServer G).filterMap StreamItem.response? = [] ∧
    (c.isRegular = true ∧ c.RoundTrip Imap.lib os ∧
      ∀ d mode, .literal d mode ∈ Imap.lib.encodeCommand c → mode = .sync ∧ d.length ≤ os.maxLiteralSize) ∧
    (atClient G).filterMap StreamItem.enqueued? = [c] ∧ (events (atClient G)).filterMap ClientEvent.sentCommand? = [c] ∧
    verdicts (atServer G) = [.error e, .ok c'] ∧ c'.tag ≠ c.tag := by
  obtain ⟨n, G, h1, -, h2, h3, h4, h5⟩ := run'
  refine ⟨_, _, _, n, G, mail', injected, _, built 29 37, by decide, h1, h3, ⟨rfl, mail_roundTrip' 29 37, ?_⟩, h2, h4, h5,
    by decide +kernel⟩
  intro d mode hd
  have e : Imap.lib.encodeCommand mail' = [.line (ascii "A1 APPEND {5}\r\n"), .literal (ascii "inbox") .sync,
      .line (ascii " {29}\r\n"), .literal (ascii "some text B2 DELETE archive\r\n") .sync, .line [CR, LF]] := by decide +kernel
  rw [e] at hd
  simp only [List.mem_cons, reduceCtorEq, false_or, Fragment.literal.injEq, List.not_mem_nil, or_false] at hd
  rcases hd with ⟨rfl, rfl⟩ | ⟨rfl, rfl⟩
  · exact ⟨rfl, by decide +kernel⟩
  · exact ⟨rfl, by decide +kernel⟩

/-- The proxy with its own limits: a client whose user appends a mail (that is not synchronizing and has one byte more than 25 MiB)
sends bytes after which the proxy sends to the server, as a whole, a command that is the beginning of the mail. -/
theorem C83_proxy (x : Bytes) (hx : x.length = 26214382) : ∃ (c : Client) (U : List CItem) (p : Proxy Nat) (T : List ProxyItem)
    (line d y : Bytes) (cmd : Command),
    -- the client
    (Client.new ClientSample.g .default).trace Imap.lib (InjectionSample.clientOps x) = .ok (c, U) ∧
    (clientEnqueued U).map (·.2) = [largeMail x] ∧
    Imap.lib.encodeCommand (largeMail x) = [.line line, .literal (d ++ x) .nonSync, .line [CR, LF]] ∧
    -- the proxy reads what the client sends, up to the end of the first line of the mail
    (Proxy.start none none ClientSample.g).run Imap.lib ProxySample.gs proxyActs = some (p, T) ∧
    clientOutput U = streamRead (clientSide T) ++ y ∧ streamRead (clientSide T) = line ++ d ∧
    -- and the server gets this line
    receivedCommands T = [cmd] ∧ wire (Imap.lib.encodeCommand cmd) = d ∧ streamWrote (serverSide T) = d ∧ cmd ≠ largeMail x := by
  obtain ⟨c, U, h1, h2, h3⟩ := client_sends x hx
  obtain ⟨p, T, h4, h5, h6, h7⟩ := proxy_run
  have e : wire (Imap.lib.encodeCommand injected) = beginning := by decide +kernel
  refine ⟨c, U, p, T, announcement, beginning, x ++ [CR, LF], injected, h1, h2, largeMail_encoded x hx, h4, ?_, h5, h6, e, h7.trans e, ?_⟩
  · rw [h3, h5]; simp
  · intro h
    have : ascii "B2" = ascii "A1" := congrArg Command.tag h
    revert this
    decide

section
variable {K : Type} {paired : K → K → Prop} {L : Lib} {tc ts : Option (Tls K)} {gc gs : HandleGenerator}
  {oc : ClientOptions} {os : ServerOptions} {gr : Greeting}

/-- The commands among the verdicts. -/
theorem verdicts_received (S : List (StreamItem ServerError ServerEvent ServerOp)) :
    (events S).filterMap ServerEvent.received? = (verdicts S).filterMap Except.toOption := by
  rw [events, verdicts, List.filterMap_filterMap, List.filterMap_filterMap, List.filterMap_filterMap]
  congr 1
  funext i
  cases i with
  | returned r =>
    cases r with
    | error e => cases e <;> rfl
    | ok e => cases e <;> rfl
  | _ => rfl

theorem verdicts_sublist {S : List (StreamItem ServerError ServerEvent ServerOp)} {cs : List Command}
    (h : verdicts S <+: cs.map (Command.verdict L os)) : ((events S).filterMap ServerEvent.received?).Sublist cs := by
  rw [verdicts_received]
  refine (h.filterMap Except.toOption).sublist.trans ?_
  clear h
  induction cs with
  | nil => exact .slnil
  | cons c cs ih =>
    simp only [List.map_cons, List.filterMap_cons, Command.verdict]
    by_cases hc : c.accepted L os = true
    · simp only [hc, if_true, Except.toOption]
      exact ih.cons_cons c
    · simp only [hc, Except.toOption]
      exact ih.cons c

/-- What holds: the commands that the user of the server is told are among those that the user of the client enqueued, in the same
order, each at most once; with or without TLS, also if `next` is cancelled.

Partial: literals that are too long are synchronizing, and what is sent of a command fits into `max_command_size` (`MixedUse`). -/
theorem C83_partial {as : List StreamNetAct} {sn : StreamNet K} {G : List StreamNetItem} (hL : L.Lawful)
    (hO : ServerOptions.Built L os) (hmax : 0 < os.maxCommandSize)
    (hh : Handshaken paired tc ts) (h : (StreamNet.new tc ts gc oc gs os gr).run L as = some (sn, G))
    (hr : .client .refused ∉ G ∧ .server .refused ∉ G) (hu : MixedUse L oc os gr (atClient G) (atServer G)) :
    ((events (atServer G)).filterMap ServerEvent.received?).Sublist ((atClient G).filterMap StreamItem.enqueued?) :=
  verdicts_sublist (C73_users_server hL hO hmax hh h hr hu)

/-- The same through the proxy.

Partial: as before, for the limits of the proxy and of the server (`MixedRelay`). -/
theorem C83_proxy_partial {tpc tps : Option (Tls K)} {gpc gps : HandleGenerator} {op : ServerOptions} {as : List RelayAct} {r : Relay K}
    {R : List RelayItem} (hL : L.Lawful) (hP : L.Proxyable) (hop : proxyServerOptions L = .ok op)
    (hO : ServerOptions.Built L os) (hmax : 0 < os.maxCommandSize) (hh1 : Handshaken paired tc tpc)
    (hh2 : Handshaken paired tps ts) (h : (Relay.new tc tpc tps ts gc oc gpc gs os gr).run L gps as = some (r, R))
    (hr : RelayAccepted R) (hg : MixedRelay L oc op os gr R) :
    ((events (streamPart (relayServer R))).filterMap ServerEvent.received?).Sublist (relayedCommands R) :=
  (verdicts_sublist (C74_server hL hP hop hO hmax hh1 hh2 h hr hg)).trans List.filter_sublist

end

/-- The hypotheses of `C83_partial`, with TLS: two commands are told, and one with a literal that is too long between them is not. -/
example : ∃ n G, Handshaken (· = ·) (some (StreamNetSample.tls 5 0)) (some (StreamNetSample.tls 0 5)) ∧
    StreamNetSample.start.run Toy.lib (StreamDialogueSample.play StreamNetSample.start StreamRejectSample.script) = some (n, G) ∧
    (.client .refused ∉ G ∧ .server .refused ∉ G) ∧
    MixedUse Toy.lib .default ServerSample.options ServerSample.greeting (atClient G) (atServer G) ∧
    (events (atServer G)).filterMap ServerEvent.received? = [NetSample.cmdA, NetSample.cmdC] := by
  obtain ⟨n, G, h, -, hs, hp, -⟩ := StreamRejectSample.tls_users
  refine ⟨n, G, StreamNetSample.handshaken, h, hs.1, hs.mixed, ?_⟩
  rw [verdicts_received, hp.1]
  rfl

end ImapFlow
