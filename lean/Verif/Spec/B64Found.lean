import Verif.Model.Parser
/-!
# The error for a string where a byte string is expected, if it is base64
-/

namespace Ron

/-- The suggestion for a string in base64. -/
def b64Found (v : Text) (bs : List UInt8) : Err := .invalidValueForType (c!"the Rusty byte string b\"" ++ bs.flatMap escapeDefault ++ c!"\"") v

end Ron
