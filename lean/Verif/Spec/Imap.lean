import Verif.Spec.Toy
import Verif.Spec.Proxy
import Verif.Spec.Examples

/-!
# A codec with the syntax of IMAP

A codec for a subset of IMAP4rev1 (RFC 3501) with the wire format that `imap-codec` uses for it.  It satisfies the contract
`Lib.Lawful` and is used to run the tests of `/repo/integration-test` on the model (`Verif.Spec.Upstream`).

Subset and simplifications: keywords are upper case; the arguments of commands other than AUTHENTICATE and IDLE and the
contents of data other than CAPABILITY are not parsed (`other`), except for their literals; the text of a status or
greeting may be empty.
-/

namespace ImapFlow.Imap

open Toy (splitLine splitLine_some splitLine_append splitLine_ext)

/-! ## Lines and literals -/

/-- Decimal digit. -/
def isDigit (b : Byte) : Bool := 48 ≤ b && b ≤ 57

/-- The value of decimal digits, the least significant first. -/
def value : Bytes → Nat
  | [] => 0
  | b :: bs => (b.toNat - 48) + 10 * value bs

/-- Remove the line ending from a reversed line. -/
def chompReversed : Bytes → Bytes
  | 10 :: 13 :: r => r
  | 10 :: r => r
  | r => r

/-- Remove CRLF (or LF) from the end of the line. -/
def chomp (line : Bytes) : Bytes := (chompReversed line.reverse).reverse

/-- The digits after the brace. -/
def announcedLength (r : Bytes) (mode : LiteralMode) : Option (Nat × LiteralMode) :=
  match r.takeWhile isDigit, r.dropWhile isDigit with
  | d :: ds, 123 :: _ => if value (d :: ds) < 4294967296 then some (value (d :: ds), mode) else none
  | _, _ => none

/-- The literal announced by the end of a line: `{5}` or `{5+}`. -/
def announced (line : Bytes) : Option (Nat × LiteralMode) :=
  match chompReversed line.reverse with
  | 125 :: 43 :: r => announcedLength r .nonSync
  | 125 :: r => announcedLength r .sync
  | _ => none

/-- Parse a message into its lines and literals.  `first` says which literals the first line may announce.  `error none`
means incomplete. -/
def parse (first : Bytes → Option (Nat × LiteralMode)) (i : Bytes) :
    Except (Option (Bytes × Nat × LiteralMode)) (Bytes × List Bytes) :=
  match _h : splitLine i with
  | none => .error none
  | some (line, rest) =>
    match first line with
    | none => .ok (rest, [line])
    | some (k, mode) =>
      if rest = [] then .error (some (line, k, mode))
      else if rest.length < k then .error none
      else
        match parse announced (rest.drop k) with
        | .error none => .error none
        | .error (some (_, k, mode)) => .error (some (line, k, mode))
        | .ok (rem, parts) => .ok (rem, line :: rest.take k :: parts)
termination_by i.length
decreasing_by
  obtain ⟨h1, b, h2, -⟩ := splitLine_some _h
  have : line.length ≠ 0 := by rw [h2]; simp
  rw [h1]
  simp; omega

theorem parse_eq (first : Bytes → Option (Nat × LiteralMode)) (i : Bytes) : parse first i =
    match splitLine i with
    | none => .error none
    | some (line, rest) =>
      match first line with
      | none => .ok (rest, [line])
      | some (k, mode) =>
        if rest = [] then .error (some (line, k, mode))
        else if rest.length < k then .error none
        else
          match parse announced (rest.drop k) with
          | .error none => .error none
          | .error (some (_, k, mode)) => .error (some (line, k, mode))
          | .ok (rem, parts) => .ok (rem, line :: rest.take k :: parts) := by
  conv => lhs; rw [parse]
  split
  · rename_i h; rw [h]
  · rename_i h; rw [h]

theorem parse_consumes {first : Bytes → Option (Nat × LiteralMode)} {i rem : Bytes} {parts : List Bytes}
    (h : parse first i = .ok (rem, parts)) :
    ∃ c, i = c ++ [LF] ++ rem ∧ parse first (c ++ [LF]) = .ok ([], parts) := by
  fun_induction parse first i generalizing rem parts with
  | case1 => cases h
  | case2 first i line rest hsp han =>
    simp only [Except.ok.injEq, Prod.mk.injEq] at h
    obtain ⟨rfl, rfl⟩ := h
    obtain ⟨rfl, b, rfl, hb⟩ := splitLine_some hsp
    refine ⟨b, rfl, ?_⟩
    rw [parse_eq, splitLine_append hb]
    simp only [han]
  | case3 => cases h
  | case4 => cases h
  | case5 => cases h
  | case6 => cases h
  | case7 first i line rest hsp k mode han hne hlen rem' parts' hp ih =>
    simp only [Except.ok.injEq, Prod.mk.injEq] at h
    obtain ⟨rfl, rfl⟩ := h
    obtain ⟨c, h1, h2⟩ := ih hp
    obtain ⟨rfl, b, rfl, hb⟩ := splitLine_some hsp
    have hr : rest = rest.take k ++ (c ++ [LF] ++ rem') := by rw [← h1, List.take_append_drop]
    refine ⟨b ++ [LF] ++ rest.take k ++ c, ?_, ?_⟩
    · conv => lhs; rw [hr]
      simp
    · have e : b ++ [LF] ++ rest.take k ++ c ++ [LF] = b ++ LF :: (rest.take k ++ (c ++ [LF])) := by simp
      have hk : (rest.take k).length = k := by simp; omega
      have hne' : rest.take k ++ (c ++ [LF]) ≠ [] := by simp
      have hlen' : ¬ (rest.take k ++ (c ++ [LF])).length < k := by
        rw [List.length_append, hk]; omega
      have hd : (rest.take k ++ (c ++ [LF])).drop k = c ++ [LF] := by
        rw [List.drop_append_of_le_length (by omega), List.drop_eq_nil_of_le (by omega)]; rfl
      have ht : (rest.take k ++ (c ++ [LF])).take k = rest.take k := by
        rw [List.take_append_of_le_length (by omega), List.take_of_length_le (by omega)]
      rw [e, parse_eq, splitLine_append hb]
      simp only [han, if_neg hne', if_neg hlen', hd, h2, ht]

theorem parse_literal {first : Bytes → Option (Nat × LiteralMode)} {p x rem line : Bytes} {k : Nat} {mode : LiteralMode}
    {parts : List Bytes} (h : parse first p = .error (some (line, k, mode)))
    (hx : parse first (p ++ x) = .ok (rem, parts)) : rem.length + k < x.length := by
  fun_induction parse first p generalizing line k mode parts with
  | case1 => cases h
  | case2 => cases h
  | case3 first i line' k' mode' han hsp =>
    simp only [Except.error.injEq, Option.some.injEq, Prod.mk.injEq] at h
    obtain ⟨rfl, rfl, rfl⟩ := h
    rw [parse_eq, splitLine_ext hsp] at hx
    simp only [han, List.nil_append] at hx
    split at hx
    · cases hx
    · split at hx
      · cases hx
      · rename_i hlen
        split at hx
        · cases hx
        · cases hx
        · rename_i rem' parts' hp
          simp only [Except.ok.injEq, Prod.mk.injEq] at hx
          obtain ⟨c, h1, -⟩ := parse_consumes hp
          have := congrArg List.length h1
          simp at this
          rw [← hx.1]
          omega
  | case4 => cases h
  | case5 => cases h
  | case6 first i line' rest hsp k' mode' han hne hlen l1 k1 m1 hp ih =>
    simp only [Except.error.injEq, Option.some.injEq, Prod.mk.injEq] at h
    obtain ⟨rfl, rfl, rfl⟩ := h
    rw [parse_eq, splitLine_ext hsp] at hx
    have hd : (rest ++ x).drop k' = rest.drop k' ++ x := List.drop_append_of_le_length (by omega)
    simp only [han, hd] at hx
    split at hx
    · cases hx
    · split at hx
      · cases hx
      · split at hx
        · cases hx
        · cases hx
        · rename_i rem' parts' hp'
          simp only [Except.ok.injEq, Prod.mk.injEq] at hx
          obtain ⟨rfl, rfl⟩ := hx
          exact ih hp hp'
  | case7 => cases h

/-! ## Decoders -/

/-- Decoder for messages without literals. -/
def decodeSimple {μ : Type} (interp : Bytes → Option μ) : Decoder SimpleDecodeError μ := fun i =>
  match parse (fun _ => none) i with
  | .error _ => .error .incomplete
  | .ok (rem, parts) =>
    match interp parts.flatten with
    | none => .error .failed
    | some m => .ok (rem, m)

/-- Decoder for responses. -/
def decodeResponse (first : Bytes → Option (Nat × LiteralMode)) (interp : Bytes → Option Response) :
    Decoder ResponseDecodeError Response := fun i =>
  match parse first i with
  | .error none => .error .incomplete
  | .error (some (_, k, _)) => .error (.literalFound k)
  | .ok (rem, parts) =>
    match interp parts.flatten with
    | none => .error .failed
    | some m => .ok (rem, m)

/-- The first word and what follows it. -/
def word (line : Bytes) : Bytes × Bytes :=
  (line.takeWhile (· != 32), (line.dropWhile (· != 32)).drop 1)

/-- Decoder for commands. -/
def decodeCommand (interp : Bytes → Option Command) : Decoder CommandDecodeError Command := fun i =>
  match parse announced i with
  | .error none => .error .incomplete
  | .error (some (line, k, mode)) => .error (.literalFound (word line).1 k mode)
  | .ok (rem, parts) =>
    match interp parts.flatten with
    | none => .error .failed
    | some m => .ok (rem, m)

theorem decodeSimple_lawful {μ : Type} (interp : Bytes → Option μ) :
    LawfulDecoder (decodeSimple interp) SimpleDecodeError.literal where
  consumes i rem m h := by
    unfold decodeSimple at h
    split at h
    · cases h
    · rename_i r parts hp
      split at h
      · cases h
      · rename_i m' hi
        simp only [Except.ok.injEq, Prod.mk.injEq] at h
        obtain ⟨rfl, rfl⟩ := h
        obtain ⟨c, h1, h2⟩ := parse_consumes hp
        exact ⟨c, h1, by simp only [decodeSimple, h2, hi]⟩
  literal p e k x rem m _ hl _ := by cases hl

theorem decodeResponse_lawful (first : Bytes → Option (Nat × LiteralMode)) (interp : Bytes → Option Response) :
    LawfulDecoder (decodeResponse first interp) ResponseDecodeError.literal where
  consumes i rem m h := by
    unfold decodeResponse at h
    split at h
    · cases h
    · cases h
    · rename_i r parts hp
      split at h
      · cases h
      · rename_i m' hi
        simp only [Except.ok.injEq, Prod.mk.injEq] at h
        obtain ⟨rfl, rfl⟩ := h
        obtain ⟨c, h1, h2⟩ := parse_consumes hp
        exact ⟨c, h1, by simp only [decodeResponse, h2, hi]⟩
  literal p e k x rem m he hl hx := by
    unfold decodeResponse at he hx
    split at he
    · cases he; cases hl
    · rename_i hp
      simp only [Except.error.injEq] at he
      subst he
      simp only [ResponseDecodeError.literal, Option.some.injEq] at hl
      subst hl
      split at hx
      · cases hx
      · cases hx
      · rename_i hp'
        split at hx
        · cases hx
        · simp only [Except.ok.injEq, Prod.mk.injEq] at hx
          rw [← hx.1]; exact parse_literal hp hp'
    · split at he
      · cases he; cases hl
      · cases he

theorem decodeCommand_lawful (interp : Bytes → Option Command) :
    LawfulDecoder (decodeCommand interp) CommandDecodeError.literal where
  consumes i rem m h := by
    unfold decodeCommand at h
    split at h
    · cases h
    · cases h
    · rename_i r parts hp
      split at h
      · cases h
      · rename_i m' hi
        simp only [Except.ok.injEq, Prod.mk.injEq] at h
        obtain ⟨rfl, rfl⟩ := h
        obtain ⟨c, h1, h2⟩ := parse_consumes hp
        exact ⟨c, h1, by simp only [decodeCommand, h2, hi]⟩
  literal p e k x rem m he hl hx := by
    unfold decodeCommand at he hx
    split at he
    · cases he; cases hl
    · rename_i hp
      simp only [Except.error.injEq] at he
      subst he
      simp only [CommandDecodeError.literal, Option.some.injEq] at hl
      subst hl
      split at hx
      · cases hx
      · cases hx
      · rename_i hp'
        split at hx
        · cases hx
        · simp only [Except.ok.injEq, Prod.mk.injEq] at hx
          rw [← hx.1]; exact parse_literal hp hp'
    · split at he
      · cases he; cases hl
      · cases he

/-! ## Base64 -/

/-- The character of six bits. -/
def base64Char (n : Nat) : Byte :=
  UInt8.ofNat (if n < 26 then 65 + n else if n < 52 then 71 + n else if n < 62 then n - 4 else if n = 62 then 43 else 47)

/-- The six bits of a character. -/
def base64Value (b : Byte) : Option Nat :=
  let n := b.toNat
  if 65 ≤ n && n ≤ 90 then some (n - 65)
  else if 97 ≤ n && n ≤ 122 then some (n - 71)
  else if 48 ≤ n && n ≤ 57 then some (n + 4)
  else if n = 43 then some 62
  else if n = 47 then some 63
  else none

/-- Base64 with padding. -/
def base64Encode : Bytes → Bytes
  | [] => []
  | [a] => [base64Char (a.toNat / 4), base64Char (a.toNat % 4 * 16), 61, 61]
  | [a, b] =>
    [base64Char (a.toNat / 4), base64Char (a.toNat % 4 * 16 + b.toNat / 16), base64Char (b.toNat % 16 * 4), 61]
  | a :: b :: c :: rest =>
    base64Char (a.toNat / 4) :: base64Char (a.toNat % 4 * 16 + b.toNat / 16)
      :: base64Char (b.toNat % 16 * 4 + c.toNat / 64) :: base64Char (c.toNat % 64) :: base64Encode rest

/-- The bytes encoded in base64 with padding. -/
def base64Decode : Bytes → Option Bytes
  | [] => some []
  | [a, b, 61, 61] =>
    match base64Value a, base64Value b with
    | some a, some b => if b % 16 = 0 then some [UInt8.ofNat (a * 4 + b / 16)] else none
    | _, _ => none
  | [a, b, c, 61] =>
    match base64Value a, base64Value b, base64Value c with
    | some a, some b, some c =>
      if c % 4 = 0 then some [UInt8.ofNat (a * 4 + b / 16), UInt8.ofNat (b % 16 * 16 + c / 4)] else none
    | _, _, _ => none
  | a :: b :: c :: d :: rest =>
    match base64Value a, base64Value b, base64Value c, base64Value d, base64Decode rest with
    | some a, some b, some c, some d, some rest =>
      some (UInt8.ofNat (a * 4 + b / 16) :: UInt8.ofNat (b % 16 * 16 + c / 4) :: UInt8.ofNat (c % 4 * 64 + d) :: rest)
    | _, _, _, _, _ => none
  | _ => none

/-! ## The messages -/

/-- Append CRLF. -/
def ln (b : Bytes) : Bytes := b ++ [CR, LF]

/-- What follows the keyword. -/
def after (keyword : String) (b : Bytes) : Option Bytes :=
  if (ascii keyword).isPrefixOf b then some (b.drop (ascii keyword).length) else none

/-- The words of a line. -/
def words (b : Bytes) : List Bytes :=
  b.foldr (fun c ws => if c = 32 then [] :: ws else match ws with | [] => [[c]] | w :: ws => (c :: w) :: ws) [[]]

/-- Words separated by spaces. -/
def unwords : List Bytes → Bytes
  | [] => []
  | [w] => w
  | w :: ws => w ++ 32 :: unwords ws

/-- The names of the mechanisms. -/
def mechanisms : List (String × AuthMechanism) :=
  [("PLAIN", .plain), ("LOGIN", .login), ("XOAUTH2", .xOAuth2), ("SCRAM-SHA-1", .scramSha1),
   ("SCRAM-SHA-1-PLUS", .scramSha1Plus), ("SCRAM-SHA-256", .scramSha256), ("SCRAM-SHA-256-PLUS", .scramSha256Plus)]

def encodeMechanism (m : AuthMechanism) : Bytes :=
  match mechanisms.find? (fun p => p.2 = m), m with
  | some p, _ => ascii p.1
  | none, .other name => name
  | none, _ => []

def decodeMechanism (b : Bytes) : AuthMechanism :=
  match mechanisms.find? (fun p => ascii p.1 = b) with
  | some p => p.2
  | none => .other b

/-- The names of the capabilities without parameters. -/
def capabilities : List (String × Capability) :=
  [("IMAP4REV1", .imap4Rev1), ("SASL-IR", .saslIr), ("QUOTA", .quota), ("QUOTASET", .quotaSet), ("MOVE", .move),
   ("LITERAL+", .literalPlus), ("LITERAL-", .literalMinus), ("UNSELECT", .unselect), ("ID", .id), ("IDLE", .idle),
   ("STARTTLS", .startTls), ("LOGINDISABLED", .loginDisabled)]

def encodeCapability (c : Capability) : Bytes :=
  match capabilities.find? (fun p => p.2 = c), c with
  | some p, _ => ascii p.1
  | none, .auth m => ascii "AUTH=" ++ encodeMechanism m
  | none, .quotaRes r => ascii "QUOTA=RES-" ++ r
  | none, .other name => name
  | none, _ => []

def decodeCapability (b : Bytes) : Capability :=
  match capabilities.find? (fun p => ascii p.1 = b), after "AUTH=" b, after "QUOTA=RES-" b with
  | some p, _, _ => p.2
  | none, some m, _ => .auth (decodeMechanism m)
  | none, none, some r => .quotaRes r
  | none, none, none => .other b

def encodeCapabilities (cs : Vec1 Capability) : Bytes := unwords (cs.toList.map encodeCapability)

def decodeCapabilities (b : Bytes) : Option (Vec1 Capability) := Vec1.tryFrom ((words b).map decodeCapability)

/-- A response code and the space after it. -/
def encodeCode : Option Code → Bytes
  | none => []
  | some .alert => ascii "[ALERT] "
  | some (.capability cs) => ascii "[CAPABILITY " ++ encodeCapabilities cs ++ ascii "] "
  | some (.other data) => 91 :: data ++ ascii "] "

def decodeCode (b : Bytes) : Option Code × Text :=
  match b with
  | 91 :: rest =>
    let code := rest.takeWhile (· != 93)
    match rest.dropWhile (· != 93) with
    | 93 :: 32 :: text =>
      match code == ascii "ALERT", (after "CAPABILITY " code).bind decodeCapabilities with
      | true, _ => (some .alert, text)
      | false, some cs => (some (.capability cs), text)
      | false, none => (some (.other code), text)
    | _ => (none, b)
  | _ => (none, b)

def encodeKind : StatusKind → String
  | .ok => "OK "
  | .no => "NO "
  | .bad => "BAD "

/-- `OK`, `NO` or `BAD` with code and text. -/
def decodeBody (b : Bytes) : Option StatusBody :=
  match after "OK " b, after "NO " b, after "BAD " b with
  | some b, _, _ => some ⟨.ok, (decodeCode b).1, (decodeCode b).2⟩
  | none, some b, _ => some ⟨.no, (decodeCode b).1, (decodeCode b).2⟩
  | none, none, some b => some ⟨.bad, (decodeCode b).1, (decodeCode b).2⟩
  | none, none, none => none

def encodeBody (b : StatusBody) : Bytes := ascii (encodeKind b.kind) ++ encodeCode b.code ++ b.text

def encodeGreetingKind : GreetingKind → String
  | .ok => "* OK "
  | .preAuth => "* PREAUTH "
  | .bye => "* BYE "

def encodeGreeting (g : Greeting) : List Fragment :=
  [.line (ln (ascii (encodeGreetingKind g.kind) ++ encodeCode g.code ++ g.text))]

def interpGreeting (line : Bytes) : Option Greeting :=
  match after "* OK " (chomp line), after "* PREAUTH " (chomp line), after "* BYE " (chomp line) with
  | some b, _, _ => some ⟨.ok, (decodeCode b).1, (decodeCode b).2⟩
  | none, some b, _ => some ⟨.preAuth, (decodeCode b).1, (decodeCode b).2⟩
  | none, none, some b => some ⟨.bye, (decodeCode b).1, (decodeCode b).2⟩
  | none, none, none => none

/-- Lines and literals, alternating. -/
def fragments : List Bytes → List Fragment
  | [] => []
  | [line] => [.line line]
  | line :: literal :: parts =>
    .line line :: .literal literal (match announced line with | some (_, mode) => mode | none => .sync) :: fragments parts

/-- Split bytes into lines and literals. -/
def toFragments (first : Bytes → Option (Nat × LiteralMode)) (b : Bytes) : List Fragment :=
  match parse first b with
  | .ok ([], parts) => fragments parts
  | _ => [.line b]

def encodeCommand (c : Command) : List Fragment :=
  match c.body with
  | .authenticate mechanism none =>
    [.line (ln (c.tag ++ ascii " AUTHENTICATE " ++ encodeMechanism mechanism))]
  | .authenticate mechanism (some ir) =>
    [.line (ln (c.tag ++ ascii " AUTHENTICATE " ++ encodeMechanism mechanism ++ 32 ::
      (if ir.isEmpty then ascii "=" else base64Encode ir)))]
  | .idle => [.line (ln (c.tag ++ ascii " IDLE"))]
  | .other content => toFragments announced (ln (c.tag ++ 32 :: content))

/-- The commands whose arguments are not parsed. -/
def commands : List String :=
  ["CAPABILITY", "NOOP", "LOGOUT", "STARTTLS", "LOGIN", "SELECT", "EXAMINE", "CREATE", "DELETE", "RENAME", "SUBSCRIBE",
   "UNSUBSCRIBE", "LIST", "LSUB", "STATUS", "APPEND", "CHECK", "CLOSE", "EXPUNGE", "SEARCH", "FETCH", "STORE", "COPY",
   "UID"]

/-- The command without its tag. -/
def interpCommandBody (b : Bytes) : Option CommandBody :=
  match b == ascii "IDLE", after "AUTHENTICATE " b with
  | true, _ => some .idle
  | false, some b =>
    match words b with
    | [m] => some (.authenticate (decodeMechanism m) none)
    | [m, [61]] => some (.authenticate (decodeMechanism m) (some []))
    | [m, ir] =>
      match base64Decode ir with
      | some ir => some (.authenticate (decodeMechanism m) (some ir))
      | none => none
    | _ => none
  | false, none => if commands.any (fun c => ascii c = (word b).1) then some (.other b) else none

def interpCommand (message : Bytes) : Option Command :=
  (interpCommandBody (word (chomp message)).2).map fun body => ⟨(word (chomp message)).1, body⟩

def encodeAuthenticateData : AuthenticateData → List Fragment
  | .continue d => [.line (ln (base64Encode d))]
  | .cancel => [.line (ln (ascii "*"))]

def interpAuthenticateData (line : Bytes) : Option AuthenticateData :=
  if chomp line = ascii "*" then some .cancel else (base64Decode (chomp line)).map .continue

def interpIdleDone (line : Bytes) : Option Unit :=
  if chomp line = ascii "DONE" then some () else none

/-- Only data can announce a literal. -/
def responseAnnounced (line : Bytes) : Option (Nat × LiteralMode) :=
  match after "* " line with
  | none => none
  | some b => if (decodeBody b).isSome || (after "BYE " b).isSome then none else announced line

def encodeResponse : Response → List Fragment
  | .status (.untagged body) => [.line (ln (ascii "* " ++ encodeBody body))]
  | .status (.tagged tag body) => [.line (ln (tag ++ 32 :: encodeBody body))]
  | .status (.bye code text) => [.line (ln (ascii "* BYE " ++ encodeCode code ++ text))]
  | .data (.capability cs) => [.line (ln (ascii "* CAPABILITY " ++ encodeCapabilities cs))]
  | .data (.other content) => toFragments responseAnnounced (ln (ascii "* " ++ content))
  | .continuationRequest (.basic code text) => [.line (ln (ascii "+ " ++ encodeCode code ++ text))]
  | .continuationRequest (.base64 data) => [.line (ln (ascii "+ " ++ base64Encode data))]

def interpResponse (message : Bytes) : Option Response :=
  let b := chomp message
  match after "+ " b, after "* " b with
  | some b, _ =>
    match base64Decode b with
    | some data => some (.continuationRequest (.base64 data))
    | none => some (.continuationRequest (.basic (decodeCode b).1 (decodeCode b).2))
  | none, some b =>
    match decodeBody b, after "BYE " b, (after "CAPABILITY " b).bind decodeCapabilities with
    | some body, _, _ => some (.status (.untagged body))
    | none, some b, _ => some (.status (.bye (decodeCode b).1 (decodeCode b).2))
    | none, none, some cs => some (.data (.capability cs))
    | none, none, none => some (.data (.other b))
  | none, none =>
    match decodeBody (word b).2 with
    | some body => some (.status (.tagged (word b).1 body))
    | none => none

/-- ASCII without control characters, not empty. -/
def textValid (t : Bytes) : Bool := !t.isEmpty && t.all fun b => 32 ≤ b && b < 127

/-- The library. -/
def lib : Lib where
  encodeGreeting := encodeGreeting
  encodeCommand := encodeCommand
  encodeAuthenticateData := encodeAuthenticateData
  encodeIdleDone := [.line (ln (ascii "DONE"))]
  encodeResponse := encodeResponse
  decodeGreeting := decodeSimple interpGreeting
  decodeResponse := decodeResponse responseAnnounced interpResponse
  decodeCommand := decodeCommand interpCommand
  decodeAuthenticateData := decodeSimple interpAuthenticateData
  decodeIdleDone := decodeSimple interpIdleDone
  textValid := textValid
  ccrBasicValid hasCode t := hasCode || (t.head? != some 91 && (base64Decode t).isNone)

theorem ln_ne (b : Bytes) : ln b ≠ [] := by simp [ln]

theorem parse_parts {first : Bytes → Option (Nat × LiteralMode)} {i rem : Bytes} {parts : List Bytes}
    (h : parse first i = .ok (rem, parts)) : ∃ l ps, parts = l :: ps ∧ l ≠ [] := by
  rw [parse_eq] at h
  split at h
  · cases h
  · rename_i line rest hsp
    obtain ⟨-, b, hb, -⟩ := splitLine_some hsp
    have hne : line ≠ [] := by rw [hb]; simp
    split at h
    · simp only [Except.ok.injEq, Prod.mk.injEq] at h
      exact ⟨line, [], h.2.symm, hne⟩
    · split at h
      · cases h
      · split at h
        · cases h
        · split at h
          · cases h
          · cases h
          · simp only [Except.ok.injEq, Prod.mk.injEq] at h
            exact ⟨line, _, h.2.symm, hne⟩

theorem toFragments_line (first : Bytes → Option (Nat × LiteralMode)) {b : Bytes} (hb : b ≠ []) :
    ∃ d rest, toFragments first b = .line d :: rest ∧ d ≠ [] := by
  unfold toFragments
  split
  · rename_i parts hp
    obtain ⟨l, ps, rfl, hl⟩ := parse_parts hp
    cases ps with
    | nil => exact ⟨l, [], rfl, hl⟩
    | cons p ps => exact ⟨l, _, rfl, hl⟩
  · exact ⟨b, [], rfl, hb⟩

/-- The codec satisfies the contract. -/
theorem lawful : lib.Lawful where
  greeting := decodeSimple_lawful _
  response := decodeResponse_lawful _ _
  command := decodeCommand_lawful _
  authenticateData := decodeSimple_lawful _
  idleDone := decodeSimple_lawful _
  encodeAuthenticate tag mechanism ir := by cases ir <;> exact ⟨_, rfl, ln_ne _⟩
  encodeIdle _ := ⟨_, rfl, ln_ne _⟩
  encodeData d := by cases d <;> exact ⟨_, rfl, ln_ne _⟩
  encodeDone := ⟨_, rfl, ln_ne _⟩
  encodeCommand c := by
    show ∃ d rest, encodeCommand c = _ ∧ _
    unfold encodeCommand
    split
    · exact ⟨_, _, rfl, ln_ne _⟩
    · exact ⟨_, _, rfl, ln_ne _⟩
    · exact ⟨_, _, rfl, ln_ne _⟩
    · exact toFragments_line _ (ln_ne _)
  defaultText := by decide +kernel

/-- The codec accepts the texts of the proxy. -/
theorem proxyable : lib.Proxyable where
  accept := by decide +kernel
  reject := by decide +kernel
  rejected := by decide +kernel
  continuation _ _ _ _ _ := rfl

/-- The codec accepts the texts of the example programs. -/
theorem exemplary : lib.Exemplary where
  texts := by decide +kernel
  requests := by decide +kernel

end ImapFlow.Imap
