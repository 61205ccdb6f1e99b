import Verif.Spec.Identity
import Verif.Proofs.Service
import Verif.Spec.Config

/-!
# Certificates and keys of the proxy
-/

namespace ImapFlow

variable {disk : Disk} {path : Bytes}

/-- A file can be read to its end, or not. -/
theorem file_cases (file : List (Except Nat PemItem)) :
    (∃ items : List PemItem, file = items.map .ok) ∨
    ∃ (items : List PemItem) (e : Nat) (rest : List (Except Nat PemItem)), file = items.map .ok ++ .error e :: rest := by
  induction file with
  | nil => exact .inl ⟨[], rfl⟩
  | cons x file ih =>
    cases x with
    | error e => exact .inr ⟨[], e, file, rfl⟩
    | ok i =>
      rcases ih with ⟨items, rfl⟩ | ⟨items, e, rest, rfl⟩
      · exact .inl ⟨i :: items, rfl⟩
      · exact .inr ⟨i :: items, e, rest, rfl⟩

theorem disk_cases (disk : Disk) (path : Bytes) : (∃ items, disk.Holds path items) ∨ ∃ e, disk.Fails path e := by
  cases h : disk path with
  | error e => exact .inr ⟨e, .inl h⟩
  | ok file =>
    rcases file_cases file with ⟨items, rfl⟩ | ⟨items, e, rest, rfl⟩
    · exact .inl ⟨items, h⟩
    · exact .inr ⟨e, .inr ⟨items, rest, h⟩⟩

theorem map_ok_inj {a b : List PemItem} (h : a.map (Except.ok (ε := Nat)) = b.map .ok) : a = b :=
  (List.map_inj_right fun a b h => by cases h; rfl).1 h

theorem Disk.Holds.unique {a b : List PemItem} (h : disk.Holds path a) (h' : disk.Holds path b) : a = b := by
  unfold Holds at h h'
  rw [h] at h'
  injection h' with h'
  exact map_ok_inj h'

theorem Disk.Holds.not_fails {a : List PemItem} {e : Nat} (h : disk.Holds path a) : ¬ disk.Fails path e := by
  unfold Holds at h
  rintro (h' | ⟨items, rest, h'⟩)
  · rw [h] at h'; cases h'
  · rw [h] at h'
    injection h' with h'
    have : (.error e : Except Nat PemItem) ∈ a.map .ok := by rw [h']; simp
    simp at this

theorem certs_holds (items : List PemItem) : collectCerts path (pemCerts (items.map .ok)) = .ok (items.filterMap PemItem.certificate?) := by
  induction items with
  | nil => rfl
  | cons i items ih =>
    unfold pemCerts at ih ⊢
    cases i <;> simp only [List.map_cons, List.filterMap_cons, PemItem.certificate?, collectCerts, ih]

theorem certs_fails (items : List PemItem) (e : Nat) (rest : List (Except Nat PemItem)) :
    collectCerts path (pemCerts (items.map .ok ++ .error e :: rest)) = .error (.io e path) := by
  induction items with
  | nil => simp [pemCerts, collectCerts]
  | cons i items ih =>
    unfold pemCerts at ih ⊢
    cases i <;> simp only [List.map_cons, List.cons_append, List.filterMap_cons, collectCerts, ih]

theorem keys_holds (items : List PemItem) (keys : List Bytes) :
    pushKeys path keys (pemPkcs8Keys (items.map .ok)) = .ok (keys ++ items.filterMap PemItem.pkcs8?) := by
  induction items generalizing keys with
  | nil => simp [pemPkcs8Keys, pushKeys]
  | cons i items ih =>
    unfold pemPkcs8Keys at ih ⊢
    cases i <;> simp only [List.map_cons, List.filterMap_cons, PemItem.pkcs8?, pushKeys, ih, List.append_assoc, List.singleton_append]

theorem keys_fails (items : List PemItem) (e : Nat) (rest : List (Except Nat PemItem)) (keys : List Bytes) :
    pushKeys path keys (pemPkcs8Keys (items.map .ok ++ .error e :: rest)) = .error (.io e path) := by
  induction items generalizing keys with
  | nil => simp [pemPkcs8Keys, pushKeys]
  | cons i items ih =>
    unfold pemPkcs8Keys at ih ⊢
    cases i <;> simp only [List.map_cons, List.cons_append, List.filterMap_cons, pushKeys, ih]

theorem chain_holds {items : List PemItem} (h : disk.Holds path items) :
    loadCertificateChainPem disk path = .ok (items.filterMap PemItem.certificate?) := by
  unfold Disk.Holds at h
  simp only [loadCertificateChainPem, h, certs_holds]

theorem chain_fails {e : Nat} (h : disk.Fails path e) : loadCertificateChainPem disk path = .error (.io e path) := by
  rcases h with h | ⟨items, rest, h⟩
  · simp only [loadCertificateChainPem, h]
  · simp only [loadCertificateChainPem, h, certs_fails]

theorem key_holds {items : List PemItem} (h : disk.Holds path items) : loadLeafKeyPem disk path =
    match items.filterMap PemItem.pkcs8? with
    | [key] => .ok key
    | keys => .error (.unexpectedKeyCount path keys.length) := by
  unfold Disk.Holds at h
  simp only [loadLeafKeyPem, h, keys_holds, List.nil_append]
  rfl

theorem key_fails {e : Nat} (h : disk.Fails path e) : loadLeafKeyPem disk path = .error (.io e path) := by
  rcases h with h | ⟨items, rest, h⟩
  · simp only [loadLeafKeyPem, h]
  · simp only [loadLeafKeyPem, h, keys_fails]

theorem loadChain_ok {chain : List Bytes} : loadCertificateChainPem disk path = .ok chain ↔
    ∃ items, disk.Holds path items ∧ items.filterMap PemItem.certificate? = chain := by
  constructor
  · intro h
    rcases disk_cases disk path with ⟨items, hi⟩ | ⟨e, he⟩
    · rw [chain_holds hi] at h
      cases h
      exact ⟨items, hi, rfl⟩
    · rw [chain_fails he] at h
      cases h
  · rintro ⟨items, hi, rfl⟩
    exact chain_holds hi

theorem loadChain_error {e : IdentityError} : loadCertificateChainPem disk path = .error e ↔
    ∃ source, disk.Fails path source ∧ e = .io source path := by
  constructor
  · intro h
    rcases disk_cases disk path with ⟨items, hi⟩ | ⟨s, he⟩
    · rw [chain_holds hi] at h
      cases h
    · rw [chain_fails he] at h
      cases h
      exact ⟨s, he, rfl⟩
  · rintro ⟨s, he, rfl⟩
    exact chain_fails he

theorem loadKey_ok {key : Bytes} : loadLeafKeyPem disk path = .ok key ↔
    ∃ items, disk.Holds path items ∧ items.filterMap PemItem.pkcs8? = [key] := by
  constructor
  · intro h
    rcases disk_cases disk path with ⟨items, hi⟩ | ⟨e, he⟩
    · rw [key_holds hi] at h
      split at h
      · rename_i k hk
        cases h
        exact ⟨items, hi, hk⟩
      · cases h
    · rw [key_fails he] at h
      cases h
  · rintro ⟨items, hi, hk⟩
    rw [key_holds hi, hk]

theorem loadKey_error {e : IdentityError} : loadLeafKeyPem disk path = .error e ↔
    (∃ source, disk.Fails path source ∧ e = .io source path) ∨
    ∃ items, disk.Holds path items ∧ (items.filterMap PemItem.pkcs8?).length ≠ 1 ∧
      e = .unexpectedKeyCount path (items.filterMap PemItem.pkcs8?).length := by
  constructor
  · intro h
    rcases disk_cases disk path with ⟨items, hi⟩ | ⟨s, he⟩
    · rw [key_holds hi] at h
      split at h
      · cases h
      · rename_i hk
        cases h
        refine .inr ⟨items, hi, fun hl => ?_, rfl⟩
        obtain ⟨k, hk'⟩ := List.length_eq_one_iff.1 hl
        exact hk k hk'
    · rw [key_fails he] at h
      cases h
      exact .inl ⟨s, he, rfl⟩
  · rintro (⟨s, he, rfl⟩ | ⟨items, hi, hl, rfl⟩)
    · exact key_fails he
    · rw [key_holds hi]
      split
      · rename_i hk
        rw [hk] at hl
        exact (hl rfl).elim
      · rfl

theorem identity_load {identity : Identity} {chain : List Bytes} {key : Bytes} :
    identity.load disk = .ok (chain, key) ↔ identity.Says disk chain key := by
  unfold Identity.load Identity.Says
  constructor
  · intro h
    split at h
    · cases h
    · rename_i hc
      split at h
      · cases h
      · rename_i hk
        cases h
        obtain ⟨certs, h1, h2⟩ := loadChain_ok.1 hc
        obtain ⟨keys, h3, h4⟩ := loadKey_ok.1 hk
        exact ⟨certs, keys, h1, h3, h2, h4⟩
  · rintro ⟨certs, keys, h1, h3, h2, h4⟩
    rw [loadChain_ok.2 ⟨certs, h1, h2⟩, loadKey_ok.2 ⟨keys, h3, h4⟩]

/-! ## The process -/

variable {K : Type} {L : Lib}

/-- A service has done nothing. -/
def Service.Fresh (s : Service K) : Prop := s.accepting = .listening ∧ s.tasks = []

/-- One step, seen by service `i`. -/
theorem Daemon.step_fresh {p p' : Daemon K} {a : DaemonAct K} {T : List DaemonItem} (h : p.step L a = some (p', T)) {i : Nat}
    {s : Service K} (hs : p.services[i]? = some s) (hf : s.Fresh) :
    ∃ s', p'.services[i]? = some s' ∧ s'.config = s.config ∧
      (s'.Fresh ∨ (∃ b, a = .service i (.accepted b) ∧ (s.config.bindTls = true → b = true))) := by
  unfold step at h
  split at h
  · cases h
  have hi : i < p.services.length := (List.getElem?_eq_some_iff.1 hs).1
  split at h
  · rename_i k act
    split at h
    · cases h
    rename_i service hk
    split at h
    · cases h
    rename_i service' hst
    cases h
    by_cases hki : k = i
    · subst hki
      rw [hs] at hk
      cases hk
      refine ⟨service', by simp [hi], ?_⟩
      obtain ⟨hf1, hf2⟩ := hf
      unfold Service.step at hst
      split at hst
      · rename_i b
        simp only [hf1] at hst
        split at hst
        · rename_i hb
          split at hst
          · rename_i hb'
            cases hst
            exact ⟨rfl, .inr ⟨b, rfl, fun _ => hb'⟩⟩
          · cases hst
            exact ⟨rfl, .inl ⟨hf1, hf2⟩⟩
        · rename_i hb
          cases hst
          exact ⟨rfl, .inr ⟨b, rfl, fun h => (hb h).elim⟩⟩
      · simp only [hf1] at hst
        cases hst
        exact ⟨rfl, .inl ⟨hf1, hf2⟩⟩
      · simp [hf1] at hst
      · simp [hf1] at hst
    · exact ⟨s, by simp [List.getElem?_set_ne hki, hs], rfl, .inl hf⟩
  · rename_i k j act
    split at h
    · cases h
    rename_i service hk
    split at h
    · cases h
    rename_i task htask
    split at h
    · cases h
    cases h
    by_cases hki : k = i
    · subst hki
      rw [hs] at hk
      cases hk
      rw [hf.2] at htask
      simp at htask
    · exact ⟨s, by simp [List.getElem?_set_ne hki, hs], rfl, .inl hf⟩

/-- A service that has done something accepted a client. -/
theorem Daemon.run_service {as : List (Disk × DaemonAct K)} {p p' : Daemon K} {T : List DaemonItem}
    (h : p.run L (as.map Prod.snd) = some (p', T)) {i : Nat} {s : Service K} (hs : p.services[i]? = some s) (hf : s.Fresh) :
    (∃ s', p'.services[i]? = some s' ∧ s'.Fresh) ∨
    ∃ disk b, (disk, .service i (.accepted b)) ∈ as ∧ (s.config.bindTls = true → b = true) := by
  induction as generalizing p s T with
  | nil => cases h; exact .inl ⟨s, hs, hf⟩
  | cons a as ih =>
    obtain ⟨disk, a⟩ := a
    simp only [List.map_cons, run] at h
    split at h
    · cases h
    rename_i p1 T1 h1
    split at h
    · cases h
    rename_i p2 T2 h2
    cases h
    obtain ⟨s1, e1, e2, e3⟩ := step_fresh h1 hs hf
    rcases e3 with e3 | ⟨b, rfl, e3⟩
    · rcases ih h2 e1 e3 with h | ⟨d, b, hm, hb⟩
      · exact .inl h
      · exact .inr ⟨d, b, List.mem_cons_of_mem _ hm, by rwa [e2] at hb⟩
    · exact .inr ⟨disk, b, List.mem_cons_self, e3⟩

theorem Daemon.main_service {workers : Nat} {valid bound : Bytes → Bool} {services : List ServiceEntry} {i : Nat} {e : ServiceEntry}
    (he : (services.filter fun e => bound e.bind.addrPort)[i]? = some e) :
    ∃ s, (Daemon.main (K := K) workers valid bound services).services[i]? = some s ∧ s.Fresh ∧
      s.config.bindTls = e.bind.encrypted := by
  refine ⟨⟨e.control valid, .listening, []⟩, ?_, ⟨rfl, rfl⟩, ?_⟩
  · simp [Daemon.main, Daemon.start, he]
  · unfold ServiceEntry.control Bind.encrypted
    cases e.bind <;> rfl

/-- The number of services does not change. -/
theorem Daemon.step_length {p p' : Daemon K} {a : DaemonAct K} {T : List DaemonItem} (h : p.step L a = some (p', T)) :
    p'.services.length = p.services.length := by
  unfold step at h
  split at h
  · cases h
  split at h
  · split at h
    · cases h
    split at h
    · cases h
    cases h
    simp
  · split at h
    · cases h
    split at h
    · cases h
    split at h
    · cases h
    cases h
    simp

theorem Daemon.run_length {as : List (DaemonAct K)} {p p' : Daemon K} {T : List DaemonItem} (h : p.run L as = some (p', T)) :
    p'.services.length = p.services.length := by
  induction as generalizing p T with
  | nil => cases h; rfl
  | cons a as ih =>
    simp only [run] at h
    split at h
    · cases h
    rename_i p1 T1 h1
    split at h
    · cases h
    rename_i p2 T2 h2
    cases h
    rw [ih h2, step_length h1]

theorem acceptedWith_snoc (i : Nat) (as : List (Disk × DaemonAct K)) (a : Disk × DaemonAct K) :
    acceptedWith i (as ++ [a]) =
      match a with
      | (disk, .service i' (.accepted true)) => if i' = i then (some disk, (acceptedWith i as).2) else acceptedWith i as
      | (_, .service i' (.secured _)) =>
        if i' = i then (none, (acceptedWith i as).2 ++ (acceptedWith i as).1.toList) else acceptedWith i as
      | (_, .service i' .handshakeFailed) => if i' = i then (none, (acceptedWith i as).2) else acceptedWith i as
      | _ => acceptedWith i as := by
  rw [acceptedWith, List.foldl_append]
  rfl

theorem acceptedWith_other {i : Nat} {a : Disk × DaemonAct K} (h : a.2.target ≠ (i, none)) (as : List (Disk × DaemonAct K)) :
    acceptedWith i (as ++ [a]) = acceptedWith i as := by
  rw [acceptedWith_snoc]
  split
  · rename_i i'; rw [if_neg]; rintro rfl; exact h rfl
  · rename_i i' _; rw [if_neg]; rintro rfl; exact h rfl
  · rename_i i'; rw [if_neg]; rintro rfl; exact h rfl
  · rfl

/-- What is known about a service with TLS. -/
structure Service.WithFiles (accepts : List Bytes → Bytes → Bool) (e : ServiceEntry) (b : Option Disk × List Disk) (s : Service K) :
    Prop where
  tls : s.config.bindTls = true
  pending : b.1.isSome = true ↔ s.accepting = .handshaking
  tasks : s.tasks.length = b.2.length
  ready : ∀ disk, disk ∈ b.1 ∨ disk ∈ b.2 → e.bind.ready accepts disk = true

theorem Daemon.step_withFiles {p p' : Daemon K} {disk : Disk} {a : DaemonAct K} {T : List DaemonItem}
    (h : p.step L a = some (p', T)) {i : Nat} {accepts : List Bytes → Bytes → Bool} {e : ServiceEntry}
    {services : List ServiceEntry} (he : services[i]? = some e) (hr : DaemonAct.Real accepts services (disk, a))
    {as : List (Disk × DaemonAct K)} (hs : ∃ s, p.services[i]? = some s ∧ s.WithFiles accepts e (acceptedWith i as)) :
    ∃ s', p'.services[i]? = some s' ∧ s'.WithFiles accepts e (acceptedWith i (as ++ [(disk, a)])) := by
  obtain ⟨s, hs, hw⟩ := hs
  have hi : i < p.services.length := (List.getElem?_eq_some_iff.1 hs).1
  unfold step at h
  split at h
  · cases h
  split at h
  · rename_i k act
    split at h
    · cases h
    rename_i service hk
    split at h
    · cases h
    rename_i service' hst
    cases h
    by_cases hki : k = i
    · subst hki
      rw [hs] at hk
      cases hk
      refine ⟨service', by simp [hi], ?_⟩
      rw [acceptedWith_snoc]
      obtain ⟨h1, h2, h3, h4⟩ := hw
      unfold Service.step at hst
      split at hst
      · rename_i b
        have hb := hr _ he
        split at hst
        · rename_i ha
          rw [if_pos h1] at hst
          split at hst
          · rename_i hb'
            cases hst
            subst hb'
            simp only [if_true]
            refine ⟨h1, by simp, h3, ?_⟩
            rintro d (hd | hd)
            · cases hd; exact hb.symm
            · exact h4 d (.inr hd)
          · rename_i hb'
            cases hst
            have hb' : b = false := by simpa using hb'
            subst hb'
            exact ⟨h1, h2, h3, h4⟩
        · cases hst
      · split at hst
        · cases hst
          exact ⟨h1, h2, h3, h4⟩
        · cases hst
      · split at hst
        · rename_i ha
          cases hst
          simp only [if_true]
          obtain ⟨d, hd⟩ := Option.isSome_iff_exists.1 (h2.2 ha)
          refine ⟨h1, by simp, by simp [h3, hd], ?_⟩
          rintro d' (hd' | hd')
          · cases hd'
          · rw [List.mem_append, Option.mem_toList] at hd'
            exact h4 d' hd'.symm
        · cases hst
      · split at hst
        · cases hst
          simp only [if_true]
          refine ⟨h1, by simp, h3, ?_⟩
          rintro d (hd | hd)
          · cases hd
          · exact h4 d (.inr hd)
        · cases hst
    · rw [acceptedWith_other (by simpa [DaemonAct.target] using hki)]
      exact ⟨s, by simp [List.getElem?_set_ne hki, hs], hw⟩
  · rename_i k j act
    rw [acceptedWith_other (by simp [DaemonAct.target])]
    split at h
    · cases h
    rename_i service hk
    split at h
    · cases h
    split at h
    · cases h
    rename_i task' items _
    cases h
    by_cases hki : k = i
    · subst hki
      rw [hs] at hk
      cases hk
      exact ⟨{ s with tasks := s.tasks.set j task' }, by simp [hi], hw.tls, hw.pending, by simp [hw.tasks], hw.ready⟩
    · exact ⟨s, by simp [List.getElem?_set_ne hki, hs], hw⟩

theorem Daemon.run_withFiles {i : Nat} {accepts : List Bytes → Bytes → Bool} {e : ServiceEntry}
    {services : List ServiceEntry} (he : services[i]? = some e) {bs as : List (Disk × DaemonAct K)} {p p' : Daemon K}
    {T : List DaemonItem} (h : p.run L (bs.map Prod.snd) = some (p', T)) (hr : ∀ a ∈ bs, DaemonAct.Real accepts services a)
    (hs : ∃ s, p.services[i]? = some s ∧ s.WithFiles accepts e (acceptedWith i as)) :
    ∃ s', p'.services[i]? = some s' ∧ s'.WithFiles accepts e (acceptedWith i (as ++ bs)) := by
  induction bs generalizing p T as with
  | nil => cases h; simpa using hs
  | cons a bs ih =>
    obtain ⟨disk, a⟩ := a
    obtain ⟨p1, T1, T2, h1, h2, rfl⟩ := run_cons h
    have := ih h2 (fun a ha => hr a (List.mem_cons_of_mem _ ha)) (step_withFiles h1 he (hr _ List.mem_cons_self) hs)
    simpa using this

theorem daemon_served {workers : Nat} {valid bound : Bytes → Bool} {services : List ServiceEntry}
    {accepts : List Bytes → Bytes → Bool} {as : List (Disk × DaemonAct K)} {p : Daemon K} {T : List DaemonItem} {i j : Nat}
    (h : (Daemon.main workers valid bound services).run L (as.map Prod.snd) = some (p, T))
    (hr : ∀ a ∈ as, DaemonAct.Real accepts (services.filter fun e => bound e.bind.addrPort) a)
    {task : Task K} (ht : p.task? i j = some task) :
    ∃ e, (services.filter fun e => bound e.bind.addrPort)[i]? = some e ∧
      (e.bind.encrypted = true → ∃ disk, (acceptedWith i as).2[j]? = some disk ∧ e.bind.ready accepts disk = true) := by
  unfold Daemon.task? at ht
  obtain ⟨s', hs', ht⟩ := Option.bind_eq_some_iff.1 ht
  have hi : i < (services.filter fun e => bound e.bind.addrPort).length := by
    have h1 := (List.getElem?_eq_some_iff.1 hs').1
    rw [Daemon.run_length h] at h1
    simpa [Daemon.main, Daemon.start] using h1
  refine ⟨_, List.getElem?_eq_getElem hi, fun he => ?_⟩
  obtain ⟨s, hs, hf, hb⟩ := Daemon.main_service (K := K) (workers := workers) (valid := valid) (List.getElem?_eq_getElem hi)
  obtain ⟨s1, h1, h2⟩ := Daemon.run_withFiles (as := []) (List.getElem?_eq_getElem hi) h hr
    ⟨s, hs, hb.trans he, by simp [acceptedWith, hf.1], by simp [acceptedWith, hf.2], by simp [acceptedWith]⟩
  rw [hs'] at h1
  cases h1
  rw [List.nil_append] at h2
  have hj : j < (acceptedWith i as).2.length := by
    rw [← h2.tasks]
    exact (List.getElem?_eq_some_iff.1 ht).1
  exact ⟨_, List.getElem?_eq_getElem hj, h2.ready _ (.inr (List.getElem_mem hj))⟩

theorem daemon_unusable {workers : Nat} {valid bound : Bytes → Bool} {services : List ServiceEntry}
    {accepts : List Bytes → Bytes → Bool} {as : List (Disk × DaemonAct K)} {p : Daemon K} {T : List DaemonItem} {i : Nat}
    {e : ServiceEntry} (h : (Daemon.main workers valid bound services).run L (as.map Prod.snd) = some (p, T))
    (hr : ∀ a ∈ as, DaemonAct.Real accepts (services.filter fun e => bound e.bind.addrPort) a)
    (he : (services.filter fun e => bound e.bind.addrPort)[i]? = some e)
    (hu : ∀ a ∈ as, e.bind.ready accepts a.1 = false) :
    ∃ s, p.services[i]? = some s ∧ s.accepting = .listening ∧ s.tasks = [] := by
  obtain ⟨s, hs, hf, hb⟩ := Daemon.main_service (K := K) (workers := workers) (valid := valid) he
  rcases Daemon.run_service h hs hf with h1 | ⟨disk, b, hm, hb'⟩
  · exact h1
  · have h1 := hr _ hm _ he
    have h2 := hu _ hm
    dsimp only at h2
    rw [h2] at h1
    cases hbind : e.bind with
    | insecure => rw [hbind] at h2; cases h2
    | tls =>
      have := hb' (by rw [hb, hbind]; rfl)
      rw [h1] at this
      cases this

end ImapFlow
