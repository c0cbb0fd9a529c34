import Verif.Model.Prelude

/-!
# RFC 6455 section 5.3: masking

"transformed-octet-i = original-octet-i XOR masking-key-octet-(i MOD 4)"
-/

namespace WS.Spec

/-- Octet `i` of `data` XORed with octet `i mod 4` of `key`. -/
def maskOctets (key data : Bytes) : Bytes :=
  data.mapIdx fun i b => b ^^^ key.getD (i % 4) 0

end WS.Spec
