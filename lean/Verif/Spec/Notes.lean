/-
What a description of a validation error must point at: the character, or the two or three characters, that the type of the error
is about.
-/
import Verif.Spec.Reports

namespace Urlstd.Spec

/-- The part of `text` at position `p` is what an error of the type is about. -/
def Points (text : Str) (p : Nat) (part : Option Str) : VErr → Prop
  -- "The input includes credentials": the "@"
  | .invalidCredentials => part = none ∧ text[p]? = some c!"@"
  -- "The URL has a special scheme and it uses U+005C (\) instead of U+002F (/)": the backslash
  | .invalidReverseSolidus => part = none ∧ text[p]? = some c!"\\"
  -- "A code point is found that is not a URL unit": the code point, or a "%" that two hexadecimal digits do not follow
  | .invalidURLUnit =>
    (∃ c, text[p]? = some c ∧ ¬ URLCodePoint c ∧ c ≠ c!"%" ∧ part = some [c]) ∨
    (text[p]? = some c!"%" ∧ startsWithTwoHex (text.drop (p + 1)) = false ∧ part = some ((text.drop p).take 3))
  -- "The input's scheme is not followed by "//"": what follows the ":" instead, or one slash too many
  | .specialSchemeMissingFollowingSolidus =>
    (∃ a, text = a ++ u!":" ++ text.drop p ∧ p = a.length + 1 ∧ (text.drop p).take 2 ≠ u!"//" ∧ part = some ((text.drop p).take 2)) ∨
    (∃ c, text[p]? = some c ∧ (c = c!"/" ∨ c = c!"\\") ∧ part = some [c])
  -- "The input is a relative-URL string that starts with a Windows drive letter": the drive letter
  | .fileInvalidWindowsDriveLetter => startsWithDrive (text.drop p) = true ∧ part = some ((text.drop p).take 2)
  -- "A file: URL's host is a Windows drive letter": the drive letter
  | .fileInvalidWindowsDriveLetterHost => startsWithDrive (text.drop p) = true ∧ part = some ((text.drop p).take 2)
  | _ => False

end Urlstd.Spec
