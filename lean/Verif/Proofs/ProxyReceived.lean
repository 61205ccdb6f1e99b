import Verif.Proofs.ClientHeldTls
import Verif.Proofs.ProxyHeld
import Verif.Proofs.Proxy
import Verif.Proofs.RelayUse
import Verif.Spec.ProxyIdleSamples

/-!
# What the proxy holds of what it has received
-/

namespace ImapFlow

variable {K σ ε ev ι : Type} {L : Lib}

/-- The calls of the owner are recorded. -/
theorem FullStream.run_called {M : Machine σ ε ev ι} {as : List (StreamAct ι)} {c c' : FullStream K σ} {T : List (FullItem ε ev ι)}
    (h : c.run M as = some (c', T)) {op : ι} (hm : .user op ∈ as) : StreamItem.user op ∈ streamPart T := by
  induction as generalizing c T with
  | nil => cases hm
  | cons a as ih =>
    obtain ⟨c1, T1, T2, h1, h2, rfl⟩ := run_cons h
    rw [streamPart_append, List.mem_append]
    rcases List.mem_cons.mp hm with rfl | hm
    · left
      simp only [step] at h1
      split at h1
      · split at h1 <;> cases h1 <;> simp [streamPart, FullItem.stream?]
      · cases h1
    · exact .inr (ih h2 hm)

theorem proxyServerOptions_size {o : ServerOptions} (h : proxyServerOptions L = .ok o) :
    o.maxCommandSize = 25 * 1024 * 1024 + 64 * 1024 := by
  simp only [proxyServerOptions] at h
  split at h
  · cases h
  rename_i o0 h0
  split at h
  · cases h
  rename_i o1 r1 h1
  split at h
  · cases h
  split at h
  · cases h
  rename_i o2 r2 h2
  split at h
  · cases h
  cases h
  have e0 : o0.maxCommandSize = 25 * 1024 * 1024 + 64 * 1024 := by
    unfold ServerOptions.default at h0
    split at h0 <;> cases h0 <;> rfl
  have e1 : o1.maxCommandSize = o0.maxCommandSize := by
    unfold ServerOptions.setLiteralAcceptText at h1
    repeat' split at h1
    all_goals first | (cases h1; done) | (cases h1; rfl)
  have e2 : o.maxCommandSize = o1.maxCommandSize := by
    unfold ServerOptions.setLiteralRejectText at h2
    repeat' split at h2
    all_goals first | (cases h2; done) | (cases h2; rfl)
  omega

theorem ClientEvent.answer_calls {e : ClientEvent} {op : ServerOp} (h : e.answer = some op) : op ≠ .next ∧ ∀ b, op ≠ .enqueueInput b := by
  have hn : ∀ x : Response, x.enqueue ≠ .next ∧ ∀ b, x.enqueue ≠ .enqueueInput b := by intro x; cases x <;> simp [Response.enqueue]
  cases e <;> simp [answer, forwarded] at h <;> subst h <;> first | exact hn _ | simp

theorem ServerEvent.passed_calls {e : ServerEvent} {op : ClientOp} (h : e.passed = some op) :
    op ≠ .next ∧ ∀ b, op ≠ .enqueueInput b := by
  cases e <;> simp [passed, command?] at h <;> subst h <;> simp

/-- Before the greeting the proxy does what its stream to the server does. -/
theorem Proxy.greeting_run {gs : HandleGenerator} {tc : Option (Tls K)} {acts : List IoAct} {s s' : FullStream K Client}
    {T : List (FullItem ClientError ClientEvent ClientOp)} (h : s.run (clientMachine L) (acts.map IoAct.toStream) = some (s', T))
    (h1 : s'.ctl ≠ .at .dead) (h2 : s'.ctl ≠ .hung) (h3 : s'.ctl ≠ .broken) (hr : ∀ r, .stream (.returned r) ∉ T) :
    (Proxy.greeting tc s).run L gs (acts.map .server) = some (.greeting tc s', T.map .ofServer) := by
  induction acts generalizing s T with
  | nil => cases h; rfl
  | cons a acts ih =>
    obtain ⟨c1, T1, T2, e1, e2, rfl⟩ := FullStream.run_cons h
    have ne : c1.ctl ≠ .at .dead ∧ c1.ctl ≠ .hung ∧ c1.ctl ≠ .broken := by
      cases acts with
      | nil => cases e2; exact ⟨h1, h2, h3⟩
      | cons b acts =>
        obtain ⟨c2, T3, T4, e3, -⟩ := FullStream.run_cons e2
        exact ⟨fun e => (by rw [FullStream.step_stopped _ (.inl e)] at e3; cases e3),
          fun e => (by rw [FullStream.step_stopped _ (.inr (.inl e))] at e3; cases e3),
          fun e => (by rw [FullStream.step_stopped _ (.inr (.inr e))] at e3; cases e3)⟩
    have nr : nextResult T1 = none := by
      rw [nextResult, List.findSome?_eq_none_iff]
      intro i hi
      cases i with
      | stream j =>
        cases j with
        | returned r => exact (hr r (List.mem_append_left _ hi)).elim
        | _ => rfl
      | broken => exact (ne.2.2 ((FullStream.step_failures e1).broken.2 hi)).elim
      | _ => rfl
    have := ih e2 fun r hm => hr r (List.mem_append_right _ hm)
    simp only [List.map_cons, Proxy.run, Proxy.step, e1, ne.1, ne.2.1, if_false, nr, this, List.map_append]

namespace ProxyIdleSample

open ProxySample (run gs)
open ProxyHeldSample (of_proxy run_append)

theorem waiting_next (b : Bytes) : (waiting b).next Toy.lib = .ok (waiting b, .error (.io .needMoreInput)) := by
  unfold Server.next
  rfl

theorem waiting_read (b : Bytes) : FullStream.step (K := Nat) (serverMachine Toy.lib) ⟨none, [], [], waiting b, .at .reading⟩ (.read [120]) =
    some (⟨none, [], [], waiting (b ++ [120]), .at .reading⟩,
      [.stream (.read [120]), .stream (.deliver [120]), .stream (.poll (.error (.io .needMoreInput)))]) := by
  have h := waiting_next (b ++ [120])
  simp only [FullStream.step, FullStream.completeRead, FullStream.advance, FullStream.provideInput, FullStream.deliver, serverMachine]
  simp only [List.nil_append, List.length_singleton, List.isEmpty_cons, Bool.false_eq_true, if_false, Nat.one_ne_zero]
  rw [show (waiting b).enqueueInput [120] = .ok (waiting (b ++ [120])) from rfl]
  dsimp only
  rw [h]
  rfl

set_option synthInstance.maxSize 512 in
theorem idle_run (n : Nat) : ∃ T, run (acts n) =
    some (.conversation ⟨none, [], [], waiting (List.replicate n 120), .at .reading⟩ ⟨none, [], [], asking, .at .reading⟩, T) := by
  induction n with
  | zero => exact of_proxy (by decide +kernel)
  | succ n ih =>
    obtain ⟨T, h⟩ := ih
    have e : acts (n + 1) = acts n ++ [.client (.read [120])] := by
      simp only [acts, List.replicate_succ', List.append_assoc]
    obtain ⟨U, hU⟩ := ProxyHeldSample.client_step (s := ⟨none, [], [], asking, .at .reading⟩) (a := .read [120]) (waiting_read (List.replicate n 120)) rfl
      (by decide) rfl
    rw [e, List.replicate_succ']
    exact ⟨_, run_append h hU⟩

end ProxyIdleSample

end ImapFlow
