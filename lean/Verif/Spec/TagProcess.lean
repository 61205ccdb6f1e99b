import Verif.Model.TagGenerator

/-!
# A process with tag generators
-/

namespace ImapFlow

/-- A letter or digit, the alphabet of `rand::distributions::Alphanumeric`. -/
def IsAlphanumeric (b : UInt8) : Prop :=
  (48 ≤ b ∧ b ≤ 57) ∨ (65 ≤ b ∧ b ≤ 90) ∨ (97 ≤ b ∧ b ≤ 122)

/-- The random token: eight letters or digits, or nothing in debug builds. -/
def IsToken : Option Bytes → Prop
  | some t => t.length = 8 ∧ ∀ b ∈ t, IsAlphanumeric b
  | none => True

/-- A character of a tag in RFC 3501: `1*<any ASTRING-CHAR except "+">`, i.e. any printable ASCII
character except the atom-specials `(`, `)`, `{`, space, `%`, `*`, `"`, `\` (`]` is allowed in an
ASTRING-CHAR) and `+`. -/
def IsTagChar (b : UInt8) : Prop :=
  33 ≤ b ∧ b ≤ 126 ∧ b ∉ [40, 41, 123, 37, 42, 34, 92, 43]

/-- Steps of the process: any thread creates generators and uses them, with any random token. -/
inductive TagOp where
  | create
  | generate (generator : Nat) (token : Option Bytes)
  deriving DecidableEq, Repr

/-- The global counter and the generators. -/
structure TagProcess where
  count : UInt64
  generators : List TagGenerator
  deriving DecidableEq, Repr

def TagProcess.start : TagProcess := { count := 0, generators := [] }

/-- The tags produced by an execution, with the index of the generator. -/
def TagProcess.run (P : TagProcess) : List TagOp → TagProcess × List (Nat × Tag)
  | [] => (P, [])
  | .create :: ops =>
    let (count, g) := TagGenerator.new P.count
    TagProcess.run { count, generators := P.generators ++ [g] } ops
  | .generate i token :: ops =>
    match P.generators[i]? with
    | none => TagProcess.run P ops
    | some g =>
      let (g, tag) := g.generate token
      let (P, tags) := TagProcess.run { P with generators := P.generators.set i g } ops
      (P, (i, tag) :: tags)

end ImapFlow
