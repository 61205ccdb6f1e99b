import Verif.Props.C28
import Verif.Props.C59
import Verif.Spec.ConfigSamples

/-!
# C77: the proxy uses the addresses and the encryption of its configuration

`/repo/proxy/src/config.rs`, `/repo/proxy/src/main.rs:35-66`.
-/

namespace ImapFlow

theorem splitLast_none {b : Bytes} (h : 58 ∉ b) : splitLast b = none := by
  induction b with
  | nil => rfl
  | cons x xs ih =>
    rw [List.mem_cons, not_or] at h
    simp only [splitLast, ih h.2]
    rw [if_neg (Ne.symm h.1)]

theorem splitLast_append (a : Bytes) {b : Bytes} (h : 58 ∉ b) : splitLast (a ++ 58 :: b) = some (a, b) := by
  induction a with
  | nil => simp [splitLast, splitLast_none h]
  | cons x xs ih => simp only [List.cons_append, splitLast, ih]

theorem colon_not_decimal (n : Nat) : 58 ∉ decimal n := by
  intro h
  have := (decimal_digits 58 h).2
  revert this
  decide

theorem digits16_append {n m : Nat} {a b : Bytes} (h : digits16 n a = some m) : digits16 n (a ++ b) = digits16 m b := by
  induction a generalizing n with
  | nil => cases h; rfl
  | cons x xs ih =>
    simp only [digits16] at h
    simp only [List.cons_append, digits16]
    split at h
    · rename_i h1
      rw [if_pos h1]
      split at h
      · rename_i h2
        rw [if_pos h2]
        exact ih h
      · cases h
    · cases h

theorem digits16_decimal {n : Nat} (h : n < 65536) : digits16 0 (decimal n) = some n := by
  have digit : ∀ k d, d < 10 → 10 * k + d < 65536 → digits16 k [UInt8.ofNat (48 + d)] = some (10 * k + d) := by
    intro k d hd hk
    have h1 := digit_toNat hd
    have h2 : 48 ≤ UInt8.ofNat (48 + d) ∧ UInt8.ofNat (48 + d) ≤ 57 :=
      decimal_digits (n := d) _ (by rw [decimal_of_lt hd]; exact List.mem_singleton_self _)
    simp only [digits16, if_pos h2, h1]
    rw [show 48 + d - 48 = d by omega, if_pos hk]
  induction n using Nat.strongRecOn with
  | ind n ih =>
    by_cases hn : n < 10
    · rw [decimal_of_lt hn, digit 0 n hn (by omega)]
      simp
    · rw [decimal_of_ge hn, digits16_append (ih (n / 10) (by omega) (by omega)), digit _ _ (Nat.mod_lt _ (by omega)) (by omega)]
      congr 1
      omega

theorem parse16_decimal (p : UInt16) : parse16 (decimal p.toNat) = some p := by
  have hd := digits16_decimal (n := p.toNat) p.toNat_lt
  have hp : withoutPlus (decimal p.toNat) = decimal p.toNat := by
    cases h : decimal p.toNat with
    | nil => rfl
    | cons b bs =>
      have hb := (decimal_digits (n := p.toNat) b (by rw [h]; exact List.mem_cons_self)).1
      rw [withoutPlus, if_neg]
      rintro rfl
      revert hb
      decide
  rw [parse16, hp, if_neg (decimal_ne_nil _), hd]
  simp

/-- The address that is bound is read as the host and the port of the configuration, whatever the host is; an IPv6 address, too. -/
theorem C77_bind (b : Bind) : readAddress b.addrPort = some (b.host, b.port) := by
  cases b <;> simp [Bind.addrPort, Bind.host, Bind.port, addrPort, readAddress, splitLast_append _ (colon_not_decimal _), parse16_decimal]

/-- So is the address that is connected to. -/
theorem C77_connect (c : Connect) : readAddress c.addrPort = some (c.host, c.port) := by
  cases c <;>
    simp [Connect.addrPort, Connect.host, Connect.port, addrPort, readAddress, splitLast_append _ (colon_not_decimal _), parse16_decimal]

/-- Different hosts or ports have different addresses. -/
theorem C77_distinct {b b' : Bind} (h : b.addrPort = b'.addrPort) : b.host = b'.host ∧ b.port = b'.port := by
  have h1 := C77_bind b
  rw [h, C77_bind b'] at h1
  simp only [Option.some.injEq, Prod.mk.injEq] at h1
  exact ⟨h1.1.symm, h1.2.symm⟩

/-- A port that is missing is the one of IMAP, or of IMAP with TLS; otherwise host, port and encryption are as the file says. -/
theorem C77_sections (s : Section) :
    ((Connect.ofSection s).host = s.host ∧ (Connect.ofSection s).encrypted = s.encrypted ∧
      (Connect.ofSection s).port = s.port.getD (if s.encrypted then 993 else 143)) ∧
    ∀ identity b, Bind.ofSection s identity = some b → b.host = s.host ∧ b.encrypted = s.encrypted ∧
      b.port = s.port.getD (if s.encrypted then 993 else 143) := by
  obtain ⟨e, host, port⟩ := s
  refine ⟨?_, ?_⟩
  · cases e <;> cases port <;> exact ⟨rfl, rfl, rfl⟩
  · intro identity b h
    cases e with
    | false => cases h; cases port <;> exact ⟨rfl, rfl, rfl⟩
    | true =>
      cases identity with
      | none => cases h
      | some i => cases h; cases port <;> exact ⟨rfl, rfl, rfl⟩

theorem addrPort_inj {h h' : Bytes} {p p' : UInt16} (e : addrPort h p = addrPort h' p') : h = h' ∧ p = p' := by
  have := C77_distinct (b := .insecure h p) (b' := .insecure h' p') e
  exact this

theorem addrPort_between {x y h h' : Bytes} {p p' : UInt16}
    (e : x ++ h ++ 58 :: decimal p.toNat ++ y = x ++ h' ++ 58 :: decimal p'.toNat ++ y) : h = h' ∧ p = p' := by
  simp only [List.append_assoc, List.append_cancel_left_eq] at e
  simp only [← List.append_assoc, List.append_cancel_right_eq] at e
  exact addrPort_inj e

theorem schemes_differ {x y : Bytes} : imapsScheme ++ x ≠ imapScheme ++ y := by
  simp [imapsScheme, imapScheme]

/-- What is printed about a service at its start tells encryption, host and port of both sides. -/
theorem C77_display {e e' : ServiceEntry} (h : e.bind.display = e'.bind.display ∧ e.connect.display = e'.connect.display) :
    (e.bind.encrypted = e'.bind.encrypted ∧ e.bind.host = e'.bind.host ∧ e.bind.port = e'.bind.port) ∧
    e.connect = e'.connect := by
  obtain ⟨h1, h2⟩ := h
  constructor
  · revert h1
    cases e.bind <;> cases e'.bind <;> intro h1 <;> simp only [Bind.display] at h1
    · exact ⟨rfl, addrPort_between h1⟩
    · simp only [List.append_assoc] at h1
      exact (schemes_differ h1.symm).elim
    · simp only [List.append_assoc] at h1
      exact (schemes_differ h1).elim
    · exact ⟨rfl, addrPort_between h1⟩
  · revert h2
    cases e.connect <;> cases e'.connect <;> intro h2 <;> simp only [Connect.display] at h2
    · obtain ⟨rfl, rfl⟩ := addrPort_between h2
      rfl
    · simp only [List.append_assoc] at h2
      exact (schemes_differ h2.symm).elim
    · simp only [List.append_assoc] at h2
      exact (schemes_differ h2).elim
    · obtain ⟨rfl, rfl⟩ := addrPort_between h2
      rfl

/-- The printed text itself: the scheme of a URL, the address, and whether there is TLS. -/
theorem C77_printed (b : Bind) (c : Connect) :
    b.display = ascii (if b.encrypted then "imaps://" else "imap://") ++ b.addrPort ++
      ascii (if b.encrypted then " (TLS)" else " (insecure)") ∧
    c.display = ascii (if c.encrypted then "imaps://" else "imap://") ++ c.addrPort ++
      ascii (if c.encrypted then " (TLS)" else " (insecure)") := by
  have h1 : ascii "imaps://" = imapsScheme := by decide
  have h2 : ascii "imap://" = imapScheme := by decide
  have h3 : ascii " (TLS)" = tlsSuffix := by decide
  have h4 : ascii " (insecure)" = insecureSuffix := by decide
  constructor
  · cases b <;> simp [Bind.display, Bind.encrypted, Bind.addrPort, addrPort, h1, h2, h3, h4]
  · cases c <;> simp [Connect.display, Connect.encrypted, Connect.addrPort, addrPort, h1, h2, h3, h4]

/-- A conversation of a process that was started with a configuration belongs to one of its services whose address could be bound:
there is TLS with the client if and only if `bind` says so, and there is TLS with the server if and only if `connect` says so. -/
theorem C77_encryption {K : Type} {L : Lib} {workers : Nat} {valid bound : Bytes → Bool} {services : List ServiceEntry}
    {as : List (DaemonAct K)} {p : Daemon K} {T : List DaemonItem} {i j : Nat}
    (h : (Daemon.main workers valid bound services).run L as = some (p, T)) {g : HandleGenerator} {q : Proxy K}
    (ht : p.task? i j = some (.talking g q)) :
    ∃ e tc ts gc, e ∈ services ∧ bound e.bind.addrPort = true ∧
      tc.isSome = e.bind.encrypted ∧ ts.isSome = e.connect.encrypted ∧
      (Proxy.start tc ts gc).run L g (talkActs i j as) = some (q, taskItems i j T) := by
  obtain ⟨config, tc, ts, gc, h1, h2, h3⟩ := C59_conversation h ht
  rw [List.getElem?_map, Option.map_eq_some_iff] at h1
  obtain ⟨e, h4, rfl⟩ := h1
  have h5 := List.mem_of_getElem? h4
  rw [List.mem_filter] at h5
  refine ⟨e, tc, ts, gc, h5.1, h5.2, ?_, ?_, h3⟩
  · rw [h2.client]
    unfold ServiceEntry.control Bind.encrypted
    cases e.bind <;> rfl
  · rw [h2.server]
    unfold ServiceEntry.control Connect.encrypted
    cases e.connect <;> rfl

/-- The first service of `/repo/proxy/config.toml`. -/
example : (Bind.insecure (ascii "127.0.0.1") 1143).addrPort = ascii "127.0.0.1:1143" ∧
    (Connect.ofSection ⟨true, ascii "127.0.0.1", none⟩).display = ascii "imaps://127.0.0.1:993 (TLS)" ∧
    readAddress (ascii "::1:143") = some (ascii "::1", 143) ∧ readAddress (ascii "localhost") = none := by decide +kernel

/-- A process with two services; the address of the first one is in use.  A client of the other one is accepted with TLS, and there is
no TLS with the server. -/
example : ∃ p T, ConfigSample.start.run Toy.lib ConfigSample.acts = some (p, T) ∧ ServiceSample.stages p = [[.talking .greeting]] :=
  ConfigSample.run_acts

end ImapFlow
