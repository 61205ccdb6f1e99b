import Verif.Proofs.ProxyWire
import Verif.Spec.ProxySamples

/-!
# C40: the proxy never panics (false; exactly when it does)

`UnaskedData` and `BrokenIdle` (`Spec/Proxy.lean`) speak about the events of both connections only.
-/

namespace ImapFlow

variable {K : Type} {L : Lib} {tc ts : Option (Tls K)} {gc gs : HandleGenerator} {as : List ProxyAct} {p : Proxy K}
  {T : List ProxyItem}

/-- The claim is false: a client that sends its authenticate data together with the AUTHENTICATE command makes
the proxy panic (`/repo/proxy/src/proxy.rs:299-307`). -/
theorem C40_false_client : ¬ ∀ (L : Lib) (_ : L.Lawful) (_ : L.Proxyable) (gc gs : HandleGenerator) (as : List ProxyAct)
    (p : Proxy Nat) (T : List ProxyItem), (Proxy.start none none gc).run L gs as = some (p, T) → p ≠ .dead := by
  intro H
  obtain ⟨T, h, -⟩ := ProxySample.run_early
  exact H _ Toy.lawful Toy.proxyable _ _ _ _ _ h rfl

/-- The claim is false: a server that accepts an IDLE and ends it before the client has sent DONE makes the proxy
panic (`/repo/proxy/src/proxy.rs:460-466`). -/
theorem C40_false_server : ¬ ∀ (L : Lib) (_ : L.Lawful) (_ : L.Proxyable) (gc gs : HandleGenerator) (as : List ProxyAct)
    (p : Proxy Nat) (T : List ProxyItem), (Proxy.start none none gc).run L gs as = some (p, T) → ¬ UnaskedData T → p ≠ .dead := by
  intro H
  obtain ⟨T, h, -, -⟩ := ProxySample.run_broken
  refine H _ Toy.lawful Toy.proxyable _ _ _ _ _ h ?_ rfl
  have hi := Proxy.run_inv Toy.lawful Toy.proxyable h
  obtain ⟨c, s, o, gr, V, U, hi⟩ := hi
  rcases hi.cause with ⟨-, -, -, hr⟩ | ⟨-, hu, -⟩
  · have h2 : (ProxySample.run ProxySample.broken).map (fun x => decide (forwardedResponses x.2 =
        (streamEvents (serverSide x.2)).filterMap ClientEvent.forwarded)) = some false := by decide +kernel
    rw [show ProxySample.run ProxySample.broken = some (.dead, T) from h] at h2
    simp only [Option.map_some, Option.some.injEq, decide_eq_false_iff_not] at h2
    exact (h2 hr).elim
  · exact hu

/-- The claim for a well-behaved client and a well-behaved server; and there are no other panics: the proxy
has panicked exactly if the client sent authenticate data that the server did not ask for, or the server ended
an IDLE that it had accepted. -/
theorem C40_partial (hL : L.Lawful) (hP : L.Proxyable) (h : (Proxy.start tc ts gc).run L gs as = some (p, T)) :
    p = .dead ↔ UnaskedData T ∨ BrokenIdle T := by
  constructor
  · rintro rfl
    obtain ⟨c, s, o, gr, V, U, hi⟩ := Proxy.run_inv hL hP h
    rcases hi.cause with ⟨hu, -⟩ | ⟨hb, -⟩
    · exact .inl hu
    · exact .inr hb
  · intro hu
    by_cases hp : p = .dead
    · exact hp
    · have hl := Proxy.run_ledger hL hP h hp
      rcases hu with hu | hb
      · exact (hl.asked hu).elim
      · exact (hl.idle hb).elim

/-- A panic is the last thing that happens, it is a failed `unwrap`, and it is visible as such. -/
theorem C40_panic_is_last (hL : L.Lawful) (hP : L.Proxyable) (h : (Proxy.start tc ts gc).run L gs as = some (p, T)) :
    (p = .dead → ∃ T', T = T' ++ [.panicked .unwrapFailed] ∧ ∀ q, .panicked q ∉ T') ∧
    (p ≠ .dead → ∀ q, .panicked q ∉ T) := by
  constructor
  · rintro rfl
    obtain ⟨c, s, o, gr, V, U, hi⟩ := Proxy.run_inv hL hP h
    exact hi.last
  · exact fun hp => (Proxy.run_ledger hL hP h hp).calm

/-- A conversation with AUTHENTICATE and IDLE without a panic. -/
example : ∃ p T, ProxySample.run ProxySample.talk = some (p, T) ∧ ¬ (UnaskedData T ∨ BrokenIdle T) ∧
    forwardedCommands T = ProxySample.talkCommands := by
  obtain ⟨p, T, h, h1, -, h2, -⟩ := ProxySample.run_talk
  exact ⟨p, T, h, fun hu => h1 ((C40_partial Toy.lawful Toy.proxyable h).2 hu), h2⟩

end ImapFlow
