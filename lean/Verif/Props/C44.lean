import Verif.Proofs.NetSettled
import Verif.Spec.NetRejectSamples

/-!
# C44: end to end, client and server agree about rejected literals

The system of `Spec/Net.lean` with any mixture of commands whose literals the server accepts and commands
with a synchronizing literal that is too long for the server (`MixedCommands`).  The user of the server
sends no continuation requests of its own, and a tagged BAD only for commands that were delivered to it
(`PoliteServer`); otherwise the client takes those for answers to its literals.
-/

namespace ImapFlow

variable {L : Lib} {gc gs : HandleGenerator} {oc : ClientOptions} {os : ServerOptions} {gr : Greeting}
  {ops : List NetOp} {n : Net} {T : List NItem}

/-- What the server does with its input is determined by the enqueued commands, in order: a command whose
literals are accepted is delivered; otherwise the server discards exactly the bytes before the literal that
is too long, answers BAD, and goes on with the next command. -/
theorem C44_server_in_step (hL : L.Lawful) (h : (Net.new gc oc gs os gr).run L ops = .ok (n, T))
    (hO : ServerOptions.Built L os) (hmax : 0 < os.maxCommandSize)
    (hrt : ∀ m ∈ serverMessages gr (serverItems T), m.RoundTrip L oc)
    (hE : MixedCommands L os (clientEnqueued (clientItems T))) (hP : PoliteServer gr T) :
    (serverItems T).filter SItem.reads <+: (clientEnqueued (clientItems T)).map (fun x => x.2.serverRead L os) ∧
    serverCommands (serverItems T) <+:
      ((clientEnqueued (clientItems T)).map (·.2)).filter (Command.accepted L os) := by
  have hl := Net.run_linked h
  obtain ⟨hc, -⟩ := hl.agreed hL hO hrt hmax hE hP (P := T) (Q := []) (by simp)
  obtain ⟨sops, hst⟩ := hl.server
  have hst' : (Server.new gs os gr).trace L sops = .ok (n.server, serverItems T ++ []) := by rw [hst, List.append_nil]
  obtain ⟨k, m, hs⟩ := hE.serverAt hO hmax hst' ((hl.causal T [] (by simp)).2.trans hc.output.2)
  refine ⟨?_, ?_⟩
  · rw [hs.reads]
    exact (List.take_prefix _ _).map _
  · have key : ∀ E : List (RawHandle × Command), serverCommands (E.map fun x => x.2.serverRead L os) =
        (E.map (·.2)).filter (Command.accepted L os) := by
      intro E
      induction E with
      | nil => rfl
      | cons x E ih =>
        have hx : (x.2.serverRead L os).command? = if x.2.accepted L os then some x.2 else none := by
          unfold Command.serverRead
          split <;> rfl
        unfold serverCommands at ih ⊢
        rw [List.map_cons, List.filterMap_cons, hx, List.map_cons, List.filter_cons, ih]
        by_cases ha : x.2.accepted L os = true
        · rw [if_pos ha, if_pos ha]
        · rw [if_neg ha, if_neg ha]
    rw [serverCommands_filter, hs.reads, key]
    exact ((List.take_prefix _ _).map _).filter _

/-- The client reports each command as the server treats it: sent, or rejected with the BAD of the server. -/
theorem C44_client_in_step (hL : L.Lawful) (h : (Net.new gc oc gs os gr).run L ops = .ok (n, T))
    (hO : ServerOptions.Built L os) (hmax : 0 < os.maxCommandSize)
    (hrt : ∀ m ∈ serverMessages gr (serverItems T), m.RoundTrip L oc)
    (hE : MixedCommands L os (clientEnqueued (clientItems T))) (hP : PoliteServer gr T) {k : Nat} {e : ClientEvent}
    (he : (clientTerminals (clientItems T))[k]? = some e) :
    ∃ x, (clientEnqueued (clientItems T))[k]? = some x ∧ ReportedAs L os x e := by
  obtain ⟨hc, -⟩ := (Net.run_linked h).agreed hL hO hrt hmax hE hP (P := T) (Q := []) (by simp)
  rw [← (ClientView.of_fields (clientItems T)).2.2.2.1, List.getElem?_map, Option.map_eq_some_iff] at he
  obtain ⟨en, h1, rfl⟩ := he
  obtain ⟨x, h2, h3, -⟩ := hc.ended k en h1
  exact ⟨x, h2, h3⟩

/-- If the system cannot make a step without its users, all commands were delivered or rejected, and the
client has reported so. -/
theorem C44_no_deadlock (hL : L.Lawful) (h : (Net.new gc oc gs os gr).run L ops = .ok (n, T))
    (hO : ServerOptions.Built L os) (hmax : 0 < os.maxCommandSize)
    (hrt : ∀ m ∈ serverMessages gr (serverItems T), m.RoundTrip L oc)
    (hE : MixedCommands L os (clientEnqueued (clientItems T))) (hP : PoliteServer gr T) (hs : n.Stuck L) :
    (serverItems T).filter SItem.reads = (clientEnqueued (clientItems T)).map (fun x => x.2.serverRead L os) ∧
    (clientTerminals (clientItems T)).length = (clientEnqueued (clientItems T)).length := by
  obtain ⟨n', T', A, B, hl', hA, hB, h1, h2, e1, e2, e3, e4, U, e5, e6, -⟩ := (Net.run_linked h).settle hO hs
  have hP' : PoliteServer gr T' := by
    refine ⟨by rw [e3]; exact hP.continuation, ?_⟩
    intro T1 i T2 hd tag body hT hi hb
    rw [e5] at hT
    rcases List.append_eq_append_iff.mp hT with ⟨a, a1, a2⟩ | ⟨a, a1, a2⟩
    · exfalso
      have := e6 i (by rw [a2, serverItems_append]; exact List.mem_append_right _ (by simp [serverItems, NItem.server?]))
      rw [this] at hi
      cases hi
    · cases a with
      | nil =>
        exfalso
        have := e6 i (by rw [← List.nil_append U, ← a2]; simp [serverItems, NItem.server?])
        rw [this] at hi
        cases hi
      | cons y a =>
        simp only [List.cons_append, List.cons.injEq] at a2
        rw [← a2.1] at a1
        exact hP.bad T1 i a hd tag body a1 hi hb
  have := hl'.settled hL hO (by rw [e3]; exact hrt) hA hB h1 h2 hmax (by rw [e1]; exact hE) hP'
  rw [e1, e2, e4] at this
  exact this

/-- A stuck system after a delivered, a rejected and another delivered command; the rejected command has an
accepted literal before the one that is too long. -/
example : ∃ n T, NetSample.start.run Toy.lib NetSample.rejectOps = .ok (n, T) ∧
    (∀ m ∈ serverMessages ServerSample.greeting (serverItems T), m.RoundTrip Toy.lib .default) ∧
    MixedCommands Toy.lib ServerSample.options (clientEnqueued (clientItems T)) ∧
    PoliteServer ServerSample.greeting T ∧ n.Stuck Toy.lib ∧
    ∃ h1 h2 h3 st, clientTerminals (clientItems T) = [.commandSent h1 NetSample.cmdA,
      .commandRejected h2 NetSample.cmdX st, .commandSent h3 NetSample.cmdC] := by
  obtain ⟨n, T, h, hf⟩ := NetSample.reject_run
  exact ⟨n, T, h, NetSample.reject_messages hf, NetSample.reject_commands hf, NetSample.reject_polite hf,
    ⟨hf.2.2.2.2.2.1, hf.2.2.2.2.1, NetSample.of_starves hf.2.2.2.2.2.2.1, NetSample.of_starves hf.2.2.2.2.2.2.2⟩,
    _, _, _, _, hf.2.2.1⟩

end ImapFlow
