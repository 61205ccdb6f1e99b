import Verif.Proofs.ClientReads
import Verif.Spec.ClientSamples
import Verif.Proofs.ServerReads
import Verif.Spec.ServerSamples

/-!
# C06: bytes inside an accepted literal are opaque
-/

namespace ImapFlow

/-- Client: if the unread input starts with the beginning `p ++ l` of a response that announces a
literal of `k` bytes, then whatever is read next (a response, an error) spans more than `p ++ l` and
the `k` bytes after it, whatever these bytes are. -/
theorem C06_client_literal_opaque {L : Lib} (hL : L.Lawful) {g : HandleGenerator} {o : ClientOptions}
    {ops : List ClientOp} {c : Client} {T1 T2 : List CItem} {i : CItem} {p l : Bytes} {k : Nat}
    (h : (Client.new g o).trace L ops = .ok (c, T1 ++ i :: T2)) (hg : clientGreeted T1)
    (hp : Announced (responseFraming L o.crlfRelaxed) p) (hl : IsLine l) (hc : CrlfOk o.crlfRelaxed l)
    (hpl : p ++ l <+: clientUnread T1) (hd : L.decodeResponse (p ++ l) = .error (.literalFound k))
    (hi : i.taken ≠ []) : (p ++ l).length + k < i.taken.length := by
  obtain ⟨c1, hinv⟩ := Client.trace_prefix_inv hL h
  obtain ⟨h1, -, h2⟩ := Client.taken_complete hinv (Client.trace_guard hL h) hi
  exact (h2 hg).beyond_literal h1 hp hl hc hpl hd rfl

/-- Such a situation: the line `*{xx` announces two bytes, which are both LF, and the message is read
when the rest has arrived. -/
example : ∃ T1 T2 : List CItem, ∃ i : CItem, ClientSample.badTrace = T1 ++ i :: T2 ∧
    [] ++ ClientSample.ln "*{xx" <+: clientUnread T1 ∧
    Toy.lib.decodeResponse ([] ++ ClientSample.ln "*{xx") = .error (.literalFound 2) ∧
    i.taken = ClientSample.ln "*{xx" ++ ClientSample.str "\n\n" ++ ClientSample.ln "" :=
  ⟨ClientSample.badTrace.take 6, ClientSample.badTrace.drop 7, ClientSample.badTrace[6], by decide +kernel,
    by decide +kernel, by decide +kernel, by decide +kernel⟩

/-- Server: if the unread input starts with the beginning `p ++ l` of a command that announces an
acceptable literal of `k` bytes, then whatever is read next spans more than `p ++ l` and the `k` bytes
after it, or it is the report that the size limit was reached. -/
theorem C06_server_literal_opaque {L : Lib} {g : HandleGenerator} {o : ServerOptions} {gr : Greeting}
    {ops : List ServerOp} {s : Server} {T1 T2 : List SItem} {i : SItem} {p l : Bytes} {tag : Tag} {k : Nat}
    {mode : LiteralMode}
    (h : (Server.new g o gr).trace L ops = .ok (s, T1 ++ i :: T2)) (hc : serverPhase T1 = .command)
    (hp : Announced (commandFraming L o) p) (hl : IsLine l) (hcr : CrlfOk o.crlfRelaxed l)
    (hpl : p ++ l <+: serverUnread T1)
    (hd : L.decodeCommand (p ++ l) = .error (.literalFound tag k mode)) (hk : k ≤ o.maxLiteralSize)
    (hi : i.reads = true) :
    (p ++ l).length + k < i.taken.length ∨
      i = .failed (.commandTooLong ((serverUnread T1).take o.maxCommandSize)) [] := by
  obtain ⟨s1, hinv⟩ := Server.prefix_inv h
  have hg := Server.trace_guard h
  have hpre := Server.taken_prefix hinv hg
  have hph := ServerView.of_phase gr T1
  rw [hc] at hph
  have hlit : (commandFraming L o).lit (.literalFound tag k mode) = some k := by
    simp [commandFraming, CommandDecodeError.acceptable, hk]
  have key : ∀ {w : Bytes}, w <+: serverUnread T1 → ServerPhase.command.Complete L o w →
      (p ++ l).length + k < w.length := fun hw hcw => hcw.beyond_literal hw hp hl hcr hpl hd hlit
  cases i with
  | received w e =>
    obtain ⟨-, -, -, ht, -⟩ := hg
    rw [hph] at ht
    exact .inl (key hpre ht.complete)
  | failed e rs =>
    obtain ⟨-, -, hds, -⟩ := hg
    rw [hph] at hds
    by_cases hx : ∃ w', e = .commandTooLong w'
    · obtain ⟨w', rfl⟩ := hx
      obtain ⟨h1, h2, -⟩ := hds.tooLong
      right
      rw [h2, ← h1]
      have : w' = (serverUnread T1).take w'.length := List.prefix_iff_eq_take.mp hpre
      rw [← this]
    · exact .inl (key hpre (hds.complete fun w' hw' => hx ⟨w', hw'⟩))
  | _ => cases hi

/-- Such a situation: `A{xx` announces two bytes, which are both LF. -/
example : ∃ T1 T2 : List SItem, ∃ i : SItem, ServerSample.commandTrace = T1 ++ i :: T2 ∧
    serverPhase T1 = .command ∧ [] ++ ClientSample.ln "A{xx" <+: serverUnread T1 ∧
    Toy.lib.decodeCommand ([] ++ ClientSample.ln "A{xx") = .error (.literalFound (ClientSample.str "A") 2 .sync) ∧
    i.reads = true ∧
    i.taken = ClientSample.str "A{xx\r\n\n\n {x\r\nz\r\n" :=
  ⟨ServerSample.commandTrace.take 17, ServerSample.commandTrace.drop 18, ServerSample.commandTrace[17],
    by decide +kernel, by decide +kernel, by decide +kernel, by decide +kernel, by decide +kernel,
    by decide +kernel⟩

end ImapFlow
