import Verif.Spec.Identity
import Verif.Proofs.Identity
import Verif.Spec.ConfigSamples

/-!
# C81: a client with TLS is served with the certificates and the key of the files of the configuration

`/repo/proxy/src/util.rs:134-195`, `/repo/proxy/src/proxy.rs:79-125`.
-/

namespace ImapFlow

variable {disk : Disk} {path : Bytes}

/-- The chain is loaded if and only if the file can be read to its end; it consists of all certificates of the file, in order. -/
theorem C81_chain {chain : List Bytes} : loadCertificateChainPem disk path = .ok chain ↔
    ∃ items, disk.Holds path items ∧ items.filterMap PemItem.certificate? = chain :=
  loadChain_ok

/-- The key is loaded if and only if the file can be read to its end and it has exactly one key in the format PKCS#8. -/
theorem C81_key {key : Bytes} : loadLeafKeyPem disk path = .ok key ↔
    ∃ items, disk.Holds path items ∧ items.filterMap PemItem.pkcs8? = [key] :=
  loadKey_ok

/-- Otherwise there is an error, which tells the path and the first failure. -/
theorem C81_chain_error {e : IdentityError} : loadCertificateChainPem disk path = .error e ↔
    ∃ source, disk.Fails path source ∧ e = .io source path :=
  loadChain_error

/-- The same for the key; or the error tells how many keys in the format PKCS#8 there are instead of one. -/
theorem C81_key_error {e : IdentityError} : loadLeafKeyPem disk path = .error e ↔
    (∃ source, disk.Fails path source ∧ e = .io source path) ∨
    ∃ items, disk.Holds path items ∧ (items.filterMap PemItem.pkcs8?).length ≠ 1 ∧
      e = .unexpectedKeyCount path (items.filterMap PemItem.pkcs8?).length :=
  loadKey_error

/-- Both files of the configuration are used, each for its purpose. -/
theorem C81_identity {identity : Identity} {chain : List Bytes} {key : Bytes} :
    identity.load disk = .ok (chain, key) ↔ identity.Says disk chain key :=
  identity_load

/-- The error of the chain is reported, or else that of the key. -/
theorem C81_identity_error {identity : Identity} {e : IdentityError} : identity.load disk = .error e ↔
    loadCertificateChainPem disk identity.certificateChainPath = .error e ∨
    (∃ items, disk.Holds identity.certificateChainPath items) ∧ loadLeafKeyPem disk identity.leafKeyPath = .error e := by
  unfold Identity.load
  cases hc : loadCertificateChainPem disk identity.certificateChainPath with
  | error e' =>
    have h1 : ¬ ∃ items, disk.Holds identity.certificateChainPath items := by
      rintro ⟨items, hi⟩
      rw [C81_chain.2 ⟨items, hi, rfl⟩] at hc
      cases hc
    simp [h1]
  | ok chain =>
    obtain ⟨items, hi, -⟩ := C81_chain.1 hc
    have h1 : ∃ items, disk.Holds identity.certificateChainPath items := ⟨items, hi⟩
    cases loadLeafKeyPem disk identity.leafKeyPath <;> simp [h1]

/-- A key in another format is not found: the error says that there is no key. -/
theorem C81_format {items : List PemItem} (h : disk.Holds path items) (hk : ∀ der, .pkcs8Key der ∉ items) :
    loadLeafKeyPem disk path = .error (.unexpectedKeyCount path 0) := by
  have h0 : items.filterMap PemItem.pkcs8? = [] := by
    rw [List.filterMap_eq_nil_iff]
    intro i hi
    cases i with
    | pkcs8Key der => exact (hk der hi).elim
    | _ => rfl
  exact C81_key_error.2 (.inr ⟨items, h, by simp [h0], by simp [h0]⟩)

/-- If a service with TLS has a client (whether it is still to be connected to the server, or talks to it already, or failed), then the
files of the configuration, as they were when this client was accepted, held a chain and a key, and rustls accepted these. -/
theorem C81_served {K : Type} {L : Lib} {workers : Nat} {valid bound : Bytes → Bool} {services : List ServiceEntry}
    {accepts : List Bytes → Bytes → Bool} {as : List (Disk × DaemonAct K)} {p : Daemon K} {T : List DaemonItem} {i j : Nat}
    (h : (Daemon.main workers valid bound services).run L (as.map Prod.snd) = some (p, T))
    (hr : ∀ a ∈ as, DaemonAct.Real accepts (services.filter fun e => bound e.bind.addrPort) a)
    {task : Task K} (ht : p.task? i j = some task) :
    ∃ e ∈ services, (services.filter fun e => bound e.bind.addrPort)[i]? = some e ∧
      ∀ host port identity, e.bind = .tls host port identity →
        ∃ disk chain key, (acceptedWith i as).2[j]? = some disk ∧ identity.Says disk chain key ∧ accepts chain key = true := by
  obtain ⟨e, h1, h2⟩ := daemon_served h hr ht
  refine ⟨e, (List.mem_filter.1 (List.mem_of_getElem? h1)).1, h1, fun host port identity hb => ?_⟩
  obtain ⟨disk, h3, h4⟩ := h2 (by rw [hb]; rfl)
  rw [hb] at h4
  simp only [Bind.ready] at h4
  split at h4
  · cases h4
  · rename_i chain key hl
    exact ⟨disk, chain, key, h3, C81_identity.1 hl, h4⟩

/-- As long as the files of a service with TLS cannot be used, none of its clients is served, but the service goes on to listen. -/
theorem C81_unusable {K : Type} {L : Lib} {workers : Nat} {valid bound : Bytes → Bool} {services : List ServiceEntry}
    {accepts : List Bytes → Bytes → Bool} {as : List (Disk × DaemonAct K)} {p : Daemon K} {T : List DaemonItem} {i : Nat}
    {e : ServiceEntry} (h : (Daemon.main workers valid bound services).run L (as.map Prod.snd) = some (p, T))
    (hr : ∀ a ∈ as, DaemonAct.Real accepts (services.filter fun e => bound e.bind.addrPort) a)
    (he : (services.filter fun e => bound e.bind.addrPort)[i]? = some e)
    (hu : ∀ a ∈ as, e.bind.ready accepts a.1 = false) :
    ∃ s, p.services[i]? = some s ∧ s.accepting = .listening ∧ s.tasks = [] :=
  daemon_unusable h hr he hu

section
open ConfigSample

/-- The files of the second service of the sample configuration: two certificates, and a key. -/
def C81_disk : Disk := fun path =>
  if path = ascii "localhost.pem" then .ok [.ok (.certificate [1]), .ok (.other [9]), .ok (.certificate [2])]
  else if path = ascii "localhost-key.pem" then .ok [.ok (.pkcs8Key [3])]
  else .error 2

/-- The same with a key in another format. -/
def C81_old : Disk := fun path =>
  if path = ascii "localhost-key.pem" then .ok [.ok (.pkcs1Key [3])] else C81_disk path

/-- The key is converted after the first client: it is not served, and the second one is. -/
def C81_acts : List (Disk × DaemonAct Nat) :=
  (C81_old, .service 0 (.accepted false)) :: acts.map fun a => (C81_disk, a)

example : second.bind.ready (fun chain key => chain = [[1], [2]] ∧ key = [3]) C81_disk = true ∧
    loadLeafKeyPem C81_old (ascii "localhost-key.pem") = .error (.unexpectedKeyCount (ascii "localhost-key.pem") 0) ∧
    loadLeafKeyPem C81_old (ascii "localhost.key") = .error (.io 2 (ascii "localhost.key")) := by
  decide +kernel

example : ∃ p T, start.run Toy.lib (C81_acts.map Prod.snd) = some (p, T) ∧ ServiceSample.stages p = [[.talking .greeting]] ∧
    ∀ a ∈ C81_acts, DaemonAct.Real (fun chain key => chain = [[1], [2]] ∧ key = [3])
      ([first, second].filter fun e => e.bind.addrPort != ascii "[::]:143") a := by
  obtain ⟨p, T, h1, h2⟩ := ServiceSample.of_stages (x := start.run Toy.lib (C81_acts.map Prod.snd))
    (l := [[.talking .greeting]]) (by decide +kernel)
  refine ⟨p, T, h1, h2, ?_⟩
  have hf : ([first, second].filter fun e => e.bind.addrPort != ascii "[::]:143") = [second] := by decide +kernel
  rw [hf]
  intro a ha
  simp only [C81_acts, acts, List.map_cons, List.map_nil, List.mem_cons, List.not_mem_nil, or_false] at ha
  rcases ha with rfl | rfl | rfl | rfl
  · intro e he; cases he; decide +kernel
  · intro e he; cases he; decide +kernel
  · trivial
  · trivial

end

end ImapFlow
