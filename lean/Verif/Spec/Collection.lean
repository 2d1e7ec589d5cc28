/-
The constructor steps of `URLSearchParams` in the URL Standard (https://url.spec.whatwg.org/#urlsearchparams-initialize) with the
Web IDL conversions of its argument (USVString, sequence, record), and a mutable list as its entries.
-/
import Verif.Spec.Params
import Verif.Collection

namespace Urlstd.Spec

/-- the conversion to USVString: surrogate pairs become one code point, lone surrogates U+FFFD -/
def usvPair (p : ParamVal × ParamVal) : Str × Str := (combineSurrogates p.1.toStr, combineSurrogates p.2.toStr)

/-- The entries of a record (an ordered map) to which the given entries are assigned one after another: each name once, at the
place of its first entry, with the value of its last entry. -/
def recordOf (l : List (Str × Str)) : List (Str × Str) :=
  (l.map Prod.fst).eraseDups.map fun k => (k, ((l.filter fun p => p.1 == k).getLast?.map Prod.snd).getD [])

/-- a string argument: without one leading "?", through the urlencoded string parser -/
def ofString (s : Str) : List (Str × Str) := urlencodedParse (utf8 (match s with | 63 :: r => r | _ => s))

end Urlstd.Spec
