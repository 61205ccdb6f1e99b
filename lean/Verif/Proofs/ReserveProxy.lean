import Verif.Proofs.Reserve
import Verif.Proofs.ProxyReceived
import Verif.Proofs.Upgrade
import Verif.Proofs.ProxyPanic

/-!
# Lemmas on the memory that a proxy asks for
-/

namespace ImapFlow

variable {K : Type} {L : Lib}

theorem proxyServerOptions_literal {o : ServerOptions} (h : proxyServerOptions L = .ok o) :
    o.maxLiteralSize = 25 * 1024 * 1024 := by
  simp only [proxyServerOptions] at h
  split at h
  · cases h
  rename_i o0 h0
  split at h
  · cases h
  rename_i o1 r1 h1
  split at h
  · cases h
  split at h
  · cases h
  rename_i o2 r2 h2
  split at h
  · cases h
  cases h
  have e0 : o0.maxLiteralSize = 25 * 1024 * 1024 := by
    unfold ServerOptions.default at h0
    split at h0 <;> cases h0 <;> rfl
  have e1 : o1.maxLiteralSize = o0.maxLiteralSize := by
    unfold ServerOptions.setLiteralAcceptText at h1
    repeat' split at h1
    all_goals first | (cases h1; done) | (cases h1; rfl)
  have e2 : o.maxLiteralSize = o1.maxLiteralSize := by
    unfold ServerOptions.setLiteralRejectText at h2
    repeat' split at h2
    all_goals first | (cases h2; done) | (cases h2; rfl)
  omega

theorem Proxy.run_stage {tc ts : Option (Tls K)} {gc gs : HandleGenerator} {as : List ProxyAct} {T : List ProxyItem} {p : Proxy K}
    (hL : L.Lawful) (hP : L.Proxyable) (h : (Proxy.start tc ts gc).run L gs as = some (p, T)) :
    (∃ s U, Greeted L ts gc T s U) ∨ ∃ c s o gr V U, Talk L tc ts gc gs T c s o gr V U := by
  have hi := Proxy.run_inv hL hP h
  cases p with
  | greeting t s => exact .inl ⟨s, hi.2⟩
  | conversation c s =>
    obtain ⟨-, o, gr, V, U, hi⟩ := hi
    exact .inr ⟨c, s, o, gr, V, U, hi.toTalk⟩
  | over =>
    rcases hi.1 with hi | ⟨c, s, o, gr, V, U, hi⟩
    · exact .inl hi
    · exact .inr ⟨c, s, o, gr, V, U, hi.toTalk⟩
  | hung =>
    rcases hi.1 with hi | ⟨c, s, o, gr, V, U, hi⟩
    · exact .inl hi
    · exact .inr ⟨c, s, o, gr, V, U, hi.toTalk⟩
  | dead =>
    obtain ⟨c, s, o, gr, V, U, hi⟩ := hi
    exact .inr ⟨c, s, o, gr, V, U, hi.toTalk⟩

/-- What the proxy calls, whether or not it has panicked. -/
theorem Proxy.run_users {tc ts : Option (Tls K)} {gc gs : HandleGenerator} {as : List ProxyAct} {T : List ProxyItem} {p : Proxy K}
    (hL : L.Lawful) (hP : L.Proxyable) (h : (Proxy.start tc ts gc).run L gs as = some (p, T)) :
    (∀ op, .user op ∈ clientSide T → op ≠ .next ∧ ∀ b, op ≠ .enqueueInput b) ∧
    ∀ op, .user op ∈ serverSide T → op ≠ .next ∧ ∀ b, op ≠ .enqueueInput b := by
  have alive : ∀ {as : List ProxyAct} {p : Proxy K} {T : List ProxyItem}, (Proxy.start tc ts gc).run L gs as = some (p, T) →
      p ≠ .dead → (∀ op, .user op ∈ clientSide T → op ≠ .next ∧ ∀ b, op ≠ .enqueueInput b) ∧
      ∀ op, .user op ∈ serverSide T → op ≠ .next ∧ ∀ b, op ≠ .enqueueInput b := by
    intro as p T h hp
    have hl := Proxy.run_ledger hL hP h hp
    constructor
    · intro op hb
      have h2 : op ∈ madeAnswers T := List.mem_filterMap.mpr ⟨_, hb, rfl⟩
      rw [hl.answers] at h2
      obtain ⟨e, -, h3⟩ := List.mem_filterMap.mp h2
      exact ClientEvent.answer_calls h3
    · intro op hb
      have h2 : op ∈ madeCalls T := List.mem_filterMap.mpr ⟨_, hb, rfl⟩
      rw [hl.calls] at h2
      obtain ⟨e, -, h3⟩ := List.mem_filterMap.mp h2
      exact ServerEvent.passed_calls h3
  by_cases hp : p = .dead
  · subst hp
    rcases List.eq_nil_or_concat as with rfl | ⟨as', a, rfl⟩
    · simp [Proxy.run, Proxy.start] at h
    · rw [List.concat_eq_append] at h
      obtain ⟨p1, T1, D, h1, h2, rfl⟩ := Proxy.run_last h
      have hp1 : p1 ≠ .dead := by
        rintro rfl
        cases a <;> cases h2
      obtain ⟨g1, g2⟩ := alive h1 hp1
      obtain ⟨d1, d2⟩ := Proxy.step_dead h2
      constructor
      · intro op hb
        rw [clientSide, List.filterMap_append, List.mem_append] at hb
        rcases hb with hb | hb
        · exact g1 op hb
        · obtain ⟨x, hx, he⟩ := List.mem_filterMap.mp hb
          cases x with
          | client i => cases he; exact absurd hx (d1 op)
          | _ => cases he
      · intro op hb
        rw [serverSide, List.filterMap_append, List.mem_append] at hb
        rcases hb with hb | hb
        · exact g2 op hb
        · obtain ⟨x, hx, he⟩ := List.mem_filterMap.mp hb
          cases x with
          | server i => cases he; exact absurd hx (d2 op)
          | _ => cases he
  · exact alive h hp

section
variable {tc ts : Option (Tls K)} {gc gs : HandleGenerator} {as : List ProxyAct} {T : List ProxyItem} {p : Proxy K}

/-- The proxy's server, as a trace. -/
theorem Proxy.run_client_ops (hL : L.Lawful) (hP : L.Proxyable) (h : (Proxy.start tc ts gc).run L gs as = some (p, T))
    {o : ServerOptions} {gr : Greeting} (ho : proxyServerOptions L = .ok o)
    (hg : (streamEvents (serverSide T)).head? = some (.greetingReceived gr)) :
    ∃ s W, (Server.new gs o gr.restrict).trace L (serverOps (clientSide T)) = .ok (s, W) ∧
      serverGiven W = streamDelivered (clientSide T) := by
  rcases Proxy.run_stage hL hP h with ⟨s, U, hi⟩ | ⟨c, s, o', gr', V, U, hi⟩
  · rw [show streamEvents (serverSide T) = [] from hi.events] at hg
    cases hg
  rw [hi.options] at ho
  cases ho
  obtain ⟨es, hes⟩ := hi.greeting
  rw [show streamEvents (serverSide T) = _ from hes] at hg
  cases hg
  obtain ⟨as', h'⟩ := hi.client.run
  have ha := (Proxy.run_users hL hP h).1
  have h1 := FullStream.run_replay h' hi.client.alive
  rw [streamPart_clientFull, FullStream.new_state] at h1
  obtain ⟨W, h2, -, h3⟩ := server_replay_trace h1 ⟨fun hb => (ha _ hb).1 rfl, fun b hb => (ha _ hb).2 b rfl⟩
  exact ⟨_, W, h2, h3⟩

/-- The proxy's client, as a trace. -/
theorem Proxy.run_server_ops (hL : L.Lawful) (hP : L.Proxyable) (h : (Proxy.start tc ts gc).run L gs as = some (p, T)) :
    ∃ c W, (Client.new gc .default).trace L (clientOps (serverSide T)) = .ok (c, W) ∧
      clientGiven W = streamDelivered (serverSide T) := by
  obtain ⟨s, U, hi⟩ : ∃ s U, ClientLink L ts gc .default (serverFull T) s U := by
    rcases Proxy.run_stage hL hP h with ⟨s, U, hi⟩ | ⟨c, s, o', gr', V, U, hi⟩
    · exact ⟨s, U, hi.server⟩
    · exact ⟨s, U, hi.server⟩
  obtain ⟨as', h'⟩ := hi.run
  have ha := (Proxy.run_users hL hP h).2
  have h1 := FullStream.run_replay h' hi.alive
  rw [streamPart_serverFull, FullStream.new_state] at h1
  obtain ⟨W, h2, -, h3⟩ := client_replay_trace h1 ⟨fun hb => (ha _ hb).1 rfl, fun b hb => (ha _ hb).2 b rfl⟩
  exact ⟨_, W, h2, h3⟩

end

end ImapFlow
