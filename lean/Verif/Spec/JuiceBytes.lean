import Verif.Model.JuiceBytes
import Verif.Spec.Juice
/-!
# What applications may do with a juice connection
-/
namespace Verif.JuiceBytes
open Verif.Py Verif.Juice Verif.JuiceRpc

/-- What applications may do: no keys of the protocol's own, and text that can travel. -/
def LocalOk : Local → Prop
  | .send c b _ => Dict.has b ASK = false ∧ Dict.has b ANSWER = false ∧ Dict.has b ERROR = false ∧ LegalBox b ∧
      ∀ x ∈ c, IsScalar x
  | .respond _ (.answer b) => Dict.has b COMMAND = false ∧ LegalBox b
  | .respond _ (.error code desc) => (∀ x ∈ code, IsScalar x) ∧ ∀ x ∈ desc, IsScalar x
  | .lock => True

/-- The application only does what `P` allows. -/
def BOk (P : Local → Prop) : BOp → Prop
  | .act _ op => P op
  | .bytes _ _ react => ∀ p b, ∀ op ∈ react p b, P op
  | .lose _ _ => True

end Verif.JuiceBytes
