import Verif.Py.Base64Decode
import Verif.Model.JuiceArgs
/-!
# Model of `Base64Binary` of `epsilon/juice.py` on Python 2

On Python 3 it cannot be used (`Model/JuiceArgs.base64Binary`).  On Python 2 its objects and the texts in boxes are byte strings,
of type `str`; here they are `Obj.str` and `Val.text` with code points below 256.
-/
namespace Verif.JuiceBase64
open Verif.Py Verif.JuiceArgs

/-- `inObject.encode('base64').replace('\n', '')` (`juice.py:536`). -/
def toStr (s : List Nat) : List Nat := (Base64.encodestring s).filter (· != 10)

/-- `Base64Binary` (`juice.py:534-538`), on Python 2.  Code points from 256 are not of a byte string: a `unicode` with them cannot
be encoded. -/
def base64Binary2 (optional : Bool) : Codec where
  optional := optional
  enc
    | .str s => if s.all (· < 256) then .ok (.text (toStr s)) else .error .unicodeError
    | _ => .error .attributeError
  dec
    | .text s => (Base64.a2b s).map .str
    | .raw b => (Base64.a2b b).map .str

end Verif.JuiceBase64
