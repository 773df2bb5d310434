/-
What the text of a message says (C100).
-/
import Verif.Model.Messages

namespace Verif.Messages

/-- The values occur in the text one after the other, without overlap. -/
inductive InOrder : List String → List Char → Prop
  | nil (t : List Char) : InOrder [] t
  | cons (pre : List Char) (v : String) {vs : List String} {rest : List Char} : InOrder vs rest →
      InOrder (v :: vs) (pre ++ v.toList ++ rest)

/-- The values a message is about. -/
def Msg.values : Msg → List String
  | .conflict c p f q g => [c, p, f.getD "<OMITTED>", q, g.getD "<OMITTED>"]
  | .noDependency d => [d]
  | .notFound l => l
  | .notFoundOne n => [n]
  | .notNeeded l => l
  | .firstArgument c => [c]
  | .secondArgument c => [c]
  | .otherArgument i c d => [toString i, c, d, c]
  | .plain _ => []

end Verif.Messages
