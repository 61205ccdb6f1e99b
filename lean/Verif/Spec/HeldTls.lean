import Verif.Model.Proxy
import Verif.Spec.Held
import Verif.Spec.ServerSamples
import Verif.Spec.TlsRecords

/-!
# What a stream with TLS holds
-/

namespace ImapFlow

variable {K : Type}

/-- The sizes of records: they are not shorter than their content, and as soon as `n` bytes have arrived the first record is complete or
broken. -/
structure RecordLayer.Sized (R : RecordLayer K) (n : Nat) : Prop where
  opened : ∀ {k bs k' m d}, R.unprotect k bs = .record k' m (.data d) → d.length ≤ m
  sealed : ∀ k d, d.length ≤ (R.protect k d).2.flatten.length
  limit : ∀ {k bs}, R.unprotect k bs = .incomplete → bs.length < n

/-- The bytes that a TLS connection holds for its owner: the beginning of a record, and plaintext. -/
def Tls.holds (t : Tls K) : Nat := t.raw.length + t.plain.length

/-- The bytes that the TLS connection, if any, holds. -/
def tlsHolds : Option (Tls K) → Nat
  | none => 0
  | some t => t.holds

theorem toyLayer_sized : toyLayer.Sized 253 where
  opened {k bs k' m d} h := by
    cases bs with
    | nil => cases h
    | cons b bs =>
      simp only [toyLayer] at h
      split at h
      · cases h
      split at h
      · cases h
      split at h
      · cases h
      split at h
      · cases h
      · cases h; simp only [List.length_take]; omega
  sealed _ d := by
    simp only [toyLayer]
    induction d with
    | nil => simp
    | cons b d ih => simp only [List.map_cons, List.flatten_cons, List.length_append, List.length_cons] at ih ⊢; omega
  limit {k bs} h := by
    cases bs with
    | nil => simp
    | cons b bs =>
      simp only [toyLayer] at h
      split at h
      · cases h
      split at h
      · cases h
      split at h
      · cases h
      split at h
      · rename_i h1 h2 h3 h4
        have n1 : b.toNat ≠ 255 := fun e => h1 (UInt8.toNat_inj.mp e)
        have n2 : b.toNat ≠ 254 := fun e => h2 (UInt8.toNat_inj.mp e)
        have n3 : b.toNat ≠ 253 := fun e => h3 (UInt8.toNat_inj.mp e)
        have := b.toNat_lt
        simp only [List.length_cons]
        omega
      · cases h

namespace HeldTlsSample

open ClientSample (str ln g)

/-- A connection after the handshake; the beginning of a record has arrived with it. -/
def tls : Tls Nat :=
  { layer := toyLayer, readSize := 5, limit := 64, readKey := 0, raw := [9], plain := [], closed := false, writeKey := 0, sendable := [] }

theorem tls_ready : ∀ t, some tls = some t → t.layer.Sized 253 ∧ t.Ready := by
  rintro t ⟨⟩
  exact ⟨toyLayer_sized, rfl, rfl, by decide, rfl⟩

def server : FullStream Nat Server := .new (some tls) (Server.new g ServerSample.options ServerSample.greeting)

/-- The greeting is written in two parts; the client sends a command in a record of nine bytes, and then the beginning of a command and
the beginning of a record. -/
def serverActs : List (StreamAct ServerOp) :=
  [.callNext, .write 7, .write 3, .callNext, .read (str "A Cz" ++ [13, 10] ++ str "B C"), .callNext, .read ([3] ++ str "x"),
   .read (str "yz" ++ [5, 120, 121])]

def client : FullStream Nat Client := .new (some tls) (Client.new g .default)

/-- The greeting and the beginning of a response arrive in one record, which is read in two parts; the beginning of a record follows. -/
def clientActs : List (StreamAct ClientOp) :=
  [.callNext, .read (str "Ghi" ++ [13, 10] ++ str "*d"), .read (str "x" ++ [13]), .callNext, .read ([14] ++ str "a")]

end HeldTlsSample

end ImapFlow
