import Verif.Spec.InjectionSamples
import Verif.Spec.ProxyHeldSamples
import Verif.Proofs.ClientChunk
import Verif.Proofs.StreamCalls

/-!
# The client sends a mail
-/

namespace ImapFlow.InjectionSample

open ClientSample (g)

/-- The client before it has sent the mail. -/
def before (x : Bytes) : Client :=
  ProxyHeldSample.toServer g.generate.1 { queuedMessages := [⟨g.generate.2, largeMail x⟩], currentMessage := none }

/-- What the client does after it has sent the mail. -/
def afterMail (x : Bytes) : ClientSendState :=
  { queuedMessages := []
    currentMessage := some (.command { handle := g.generate.2, command := largeMail x, fragments := []
                                       activity := .waitingForFragmentsSent none }) }

theorem client_sends (x : Bytes) (hx : x.length = 26214382) : ∃ c T,
    (Client.new g .default).trace Imap.lib (clientOps x) = .ok (c, T) ∧ (clientEnqueued T).map (·.2) = [largeMail x] ∧
    clientOutput T = announcement ++ beginning ++ x ++ [CR, LF] := by
  have h1 : (Client.new g .default).trace Imap.lib [.enqueueInput (ascii "* OK hi\r\n"), .next] =
      .ok (ProxyHeldSample.toServer g { queuedMessages := [], currentMessage := none },
        [.input (ascii "* OK hi\r\n"), .received (ascii "* OK hi\r\n") (.greetingReceived greeting)]) := by decide +kernel
  have h2 : (before x).nextTrace Imap.lib = .ok (ProxyHeldSample.toServer g.generate.1 (afterMail x),
        [.output (announcement ++ beginning ++ x ++ [CR, LF])]) := by
    have hs : (⟨g.generate.2, largeMail x⟩ : ClientQueued).start Imap.lib = .ok (.command {
        handle := g.generate.2, command := largeMail x
        fragments := [.line announcement, .literal (beginning ++ x) .nonSync, .line [CR, LF]], activity := .pushingFragments none }) := by
      rw [← largeMail_encoded x hx]; rfl
    have hn : ClientSendState.next Imap.lib { queuedMessages := [⟨g.generate.2, largeMail x⟩], currentMessage := none } =
        .ok (afterMail x, .error (.io (.output (announcement ++ beginning ++ x ++ [CR, LF])))) := by
      have ha : announcement ≠ [] := by decide +kernel
      simp [ClientSendState.next, hs, ClientSendState.progressCurrent, ClientCurrent.pushToBuffer, CommandState.pushToBuffer,
        pushFragments, ha, afterMail]
    have hp : Client.progressSend Imap.lib (before x) = .ok (ProxyHeldSample.toServer g.generate.1 (afterMail x),
        .error (.io (.output (announcement ++ beginning ++ x ++ [CR, LF])))) := by
      simp only [Client.progressSend, before, ProxyHeldSample.toServer, hn]
    rw [Client.nextTrace]
    split <;> rename_i h <;> rw [hp] at h <;> cases h
    rfl
  have h3 : Client.trace Imap.lib (Client.new g .default) (clientOps x) = Client.trace Imap.lib (Client.new g .default)
      ([.enqueueInput (ascii "* OK hi\r\n"), .next] ++ [.enqueueCommand (largeMail x), .next]) := rfl
  rw [h3, Client.trace_append, h1]
  simp only [Client.trace, Client.callTrace]
  have h4 : (ProxyHeldSample.toServer g { queuedMessages := [], currentMessage := none }).enqueueCommand (largeMail x) =
      (before x, g.generate.2) := rfl
  rw [h4]
  simp only [h2]
  exact ⟨_, _, rfl, rfl, by simp [clientOutput, CItem.outputs]⟩

end ImapFlow.InjectionSample
