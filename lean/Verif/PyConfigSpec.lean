import Verif.PyConfig

/-! Specification for C95: what a configuration file says, and which files the Python driver can hold in its dictionaries. -/

namespace Verif.PyConfig

mutual
/-- What an element says: its name and, where it has text, the text, otherwise the elements inside. `canon` maps texts that mean the same to the same text. -/
def content (canon : Text → Text) : Node → Node
  | .text s => .text (canon s)
  | .comment s => .comment s
  | .elem tag cs => .elem tag (match cs.find? fun c => c.isText && !c.isBlank with
    | some (.text s) => [.text (canon s)]
    | _ => elements canon cs)

/-- The elements among the nodes. -/
def elements (canon : Text → Text) : List Node → List Node
  | [] => []
  | .elem tag cs :: r => content canon (.elem tag cs) :: elements canon r
  | _ :: r => elements canon r
end

/-- The node is an element. -/
def Node.isElem : Node → Bool
  | .elem _ _ => true
  | _ => false

/-- Elements the dictionaries can hold: a text; elements with different names; or several elements that all have the name of the element around them without the last letter, none of them empty, each again
a text or elements with different names. No comments. -/
inductive Good : Node → Prop
  | leaf {tag s} : strip s ≠ [] → Good (.elem tag [.text s])
  | record {tag cs} : (∀ c ∈ cs, c.isBlank ∨ c.isElem) → (∀ c ∈ cs, c.isElem → Good c) → (tags cs).Nodup → Good (.elem tag cs)
  | list {tag cs} : (∀ c ∈ cs, c.isBlank ∨ c.isElem) → (∀ c ∈ cs, c.isElem → Good c) → ¬ (tags cs).Nodup → (∀ t ∈ tags cs, t = tag.dropLast) →
      (∀ t ds, .elem t ds ∈ cs → ds ≠ [] ∧ (tags ds).Nodup) → Good (.elem tag cs)

/-- A map of texts to the same text where they mean the same: blanks around a text do not matter, and no text means the same as blanks. -/
structure Canon (canon : Text → Text) : Prop where
  strip : ∀ s, canon (strip s) = canon s
  blank : ∀ s, canon s = [] ↔ Verif.PyConfig.strip s = []

/-- Three numbers separated by single blanks, whose texts as printed by Python mean the same. -/
def Three (conv : Text → Option Text) (canon : Text → Text) (s : Text) : Prop :=
  ∃ a b c a' b' c', split (strip s) = [a, b, c] ∧ conv a = some a' ∧ conv b = some b' ∧ conv c = some c' ∧ canon (a' ++ ' ' :: b' ++ ' ' :: c') = canon s

/-- One number, whose text as printed by Python means the same. -/
def One (conv : Text → Option Text) (canon : Text → Text) (s : Text) : Prop := ∃ a a', split (strip s) = [a] ∧ conv a = some a' ∧ canon a' = canon s

/-- The element of a name with a text. -/
abbrev leaf (tag s : Text) : Node := .elem tag [.text s]

/-- The entries of the section `fvm` that the driver uses itself. -/
structure Entries (float int : Text → Option Text) (canon : Text → Text) (f : List Node) where
  g : List Node
  grid : .elem gridTag g ∈ f
  lower : Text
  lower_mem : leaf lowerCornerTag lower ∈ g
  lower_three : Three float canon lower
  upper : Text
  upper_mem : leaf upperCornerTag upper ∈ g
  upper_three : Three float canon upper
  dim : Text
  dim_mem : leaf dimensionTag dim ∈ g
  dim_three : Three int canon dim
  time : Text
  time_mem : leaf endTimeTag time ∈ f
  time_text : strip time ≠ []
  time_one : One float canon time
  name : Text
  name_mem : leaf nameTag name ∈ f
  name_text : strip name ≠ []
  i : List Node
  init : .elem initialDataTag i ∈ f
  python : Text
  python_mem : leaf pythonTag python ∈ i
  python_text : strip python ≠ []
  copy : canon (strip name ++ ".py".toList) = canon python

/-- The section `uq`, if there is one, has parameters. -/
def HasParameters (u : List Node) : Prop := ∃ p t ds, .elem parametersTag p ∈ u ∧ .elem t ds ∈ p

end Verif.PyConfig
