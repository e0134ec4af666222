import Verif.Py.Base64
import Verif.Py.Sha1
import Verif.Model.FilePathCreate
/-!
# Model of the names of temporary files in `epsilon/hotfixes/filepath_copyTo.py`

The 64 random bytes are given.
-/
namespace Verif.SecureName
open Verif.Py Verif.Py.Path

/-- `armor` (`filepath_copyTo.py:38-42`): `base64.urlsafe_b64encode`, or, before Python 2.4, `s.encode('hex')`. -/
def armor (urlsafe : Bool) (s : List Nat) : Str := if urlsafe then Base64.encode s else Base64.hex s

/-- `randomBytes` without `os.urandom` (`filepath_copyTo.py:34-36`): `draws` are what `random.randrange(256)` gives; the loop
variable of the comprehension hides the parameter `n` after `range(n)` is made. `randrange(256)` is below 256, written as `% 256`. -/
def randomBytes (draws : Nat → Nat) (n : Nat) : List Nat := (List.range n).map fun i => draws i % 256

/-- `armor(…)[:16]` of `_secureEnoughString` (`filepath_copyTo.py:51`), for a digest. -/
def armored (urlsafe : Bool) (digest : List Nat) : Str := (armor urlsafe digest).take 16

/-- `_secureEnoughString` (`filepath_copyTo.py:47-51`); `random` is what `randomBytes(64)` gives. -/
def secureEnoughString (urlsafe : Bool) (random : List Nat) : Str := armored urlsafe (Sha1.digest random)

/-- `temporarySibling` (`filepath_copyTo.py:315-321`), when `randomBytes(64)` gives `random`. -/
def temporarySibling (urlsafe : Bool) (cwd self : Str) (random : List Nat) : Except PyErr (Str × Bool) :=
  FilePath.temporarySibling cwd self (secureEnoughString urlsafe random)

end Verif.SecureName
