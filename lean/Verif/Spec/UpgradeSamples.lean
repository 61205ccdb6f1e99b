import Verif.Spec.Upgrade
import Verif.Spec.Imap
import Verif.Spec.ServerSamples

/-!
# Connections that are upgraded to TLS with STARTTLS
-/

namespace ImapFlow.UpgradeSample

open ClientSample (g)

/-- The connection after the handshake. -/
def tls : Tls Nat :=
  { layer := toyLayer, readSize := 5, limit := 64, readKey := 0, raw := [], plain := [], closed := false, writeKey := 0, sendable := [] }

def server : Server := Server.new g ServerSample.options ⟨.ok, none, ascii "hi"⟩

def starttls : Command := ⟨ascii "a1", .other (ascii "STARTTLS")⟩

def delete : Command := ⟨ascii "a2", .other (ascii "DELETE x")⟩

def noop : Command := ⟨ascii "a2", .other (ascii "NOOP")⟩

def glued : Command := ⟨ascii "x", .other (ascii "DELETE a2 NOOP")⟩

def go : Status := .tagged (ascii "a1") ⟨.ok, none, ascii "go"⟩

def handle : RawHandle := ⟨7, 0⟩

/-- The server sends its greeting, receives STARTTLS (followed by `input`), answers, and flushes. -/
def serverActs (input : Bytes) : List (StreamAct ServerOp) :=
  [.callNext, .write 9, .callNext, .read (ascii "a1 STARTTLS\r\n" ++ input), .user (.enqueueStatus go), .callNext, .write 10, .callFlush]

/-- The same, but `input` arrives while the answer is written, and nothing is flushed. -/
def hastyActs (input : Bytes) : List (StreamAct ServerOp) :=
  [.callNext, .write 9, .callNext, .read (ascii "a1 STARTTLS\r\n"), .user (.enqueueStatus go), .callNext, .read input]

def client : Client := Client.new g .default

/-- The client receives the greeting, sends STARTTLS, receives the answer (followed by `input`), and flushes. -/
def clientActs (input : Bytes) : List (StreamAct ClientOp) :=
  [.user (.enqueueCommand starttls), .callNext, .read (ascii "* OK hi\r\n"), .callNext, .write 13, .callNext,
   .read (ascii "a1 OK go\r\n" ++ input), .callFlush]

/-- What the owner of the server sees before the upgrade. -/
def serverSees : List (Option (Except (StreamError ServerError) ServerEvent)) :=
  [some (.ok (.greetingSent ⟨.ok, none, ascii "hi"⟩)), some (.ok (.commandReceived starttls)),
   some (.ok (.responseSent handle (.status go))), none]

/-- What the owner of the client sees before the upgrade. -/
def clientSees : List (Option (Except (StreamError ClientError) ClientEvent)) :=
  [some (.ok (.greetingReceived ⟨.ok, none, ascii "hi"⟩)), some (.ok (.commandSent handle starttls)),
   some (.ok (.statusReceived go)), none]

/-- What happens before the upgrade if only STARTTLS arrives. -/
def serverItems : List (StreamItem ServerError ServerEvent ServerOp) :=
  [.callNext, .poll (.error (.io (.output (ascii "* OK hi\r\n")))), .wrote (ascii "* OK hi\r\n"),
   .poll (.ok (.greetingSent ⟨.ok, none, ascii "hi"⟩)), .returned (.ok (.greetingSent ⟨.ok, none, ascii "hi"⟩)),
   .callNext, .poll (.error (.io .needMoreInput)), .read (ascii "a1 STARTTLS\r\n"), .deliver (ascii "a1 STARTTLS\r\n"),
   .poll (.ok (.commandReceived starttls)), .returned (.ok (.commandReceived starttls)), .user (.enqueueStatus go),
   .callNext, .poll (.error (.io (.output (ascii "a1 OK go\r\n")))), .wrote (ascii "a1 OK go\r\n"),
   .poll (.ok (.responseSent handle (.status go))), .returned (.ok (.responseSent handle (.status go))),
   .callFlush, .flushed (.ok ())]

/-- What happens after the upgrade if a command is received. -/
def secureItems : List (StreamItem ServerError ServerEvent ServerOp) :=
  [.callNext, .poll (.error (.io .needMoreInput)), .read ([10] ++ ascii "a2 NO"), .poll (.error (.io .needMoreInput)),
   .read (ascii "OP\r\na" ++ [5]), .deliver (ascii "a2 NOOP\r\na"), .poll (.ok (.commandReceived noop)),
   .returned (.ok (.commandReceived noop))]

/-- The owner of the client leaves `next` and `enqueue_input` to the stream. -/
def owned (S : List (StreamItem ClientError ClientEvent ClientOp)) : Bool :=
  S.all fun
    | .user .next | .user (.enqueueInput _) => false
    | _ => true

theorem owned_spec {S : List (StreamItem ClientError ClientEvent ClientOp)} (h : owned S = true) :
    StreamItem.user .next ∉ S ∧ ∀ b, StreamItem.user (.enqueueInput b) ∉ S := by
  unfold owned at h
  rw [List.all_eq_true] at h
  exact ⟨fun hm => by simpa using h _ hm, fun b hm => by simpa using h _ hm⟩

end ImapFlow.UpgradeSample
