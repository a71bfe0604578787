import Verif.Model.Persist
import Verif.Model.JsonText
import Verif.Model.Sha256
import Verif.Model.Keccak
/-
The library functions that the program saves, loads and hashes the state with.
-/
namespace Verif

/-- `json.MarshalIndent(_, "", " ")` (oracle/oracle.go:508, 605, 993), `json.Unmarshal`
(oracle/oracle.go:593) and `sha256.Sum256` (oracle/oracle.go:613, 999). -/
def goLib : Lib := ⟨JsonText.write 0, JsonText.read, Sha256.sum⟩

end Verif
