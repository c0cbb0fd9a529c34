import Verif.Spec.HeaderGrammar
import Verif.Spec.Headers
import Verif.Spec.Base64
import Verif.Spec.Utf8

/-!
# RFC 6455, section 4: the opening handshake

Headers are lists of names and values, in the order of the message.
-/

namespace WS.Spec

/-- ASCII lower case. -/
def lower (s : PyStr) : PyStr := s.map fun c => if 0x41 ≤ c ∧ c ≤ 0x5A then c + 0x20 else c

/-- The values of a header; names are case-insensitive. -/
def values (hs : List (PyStr × PyStr)) (name : PyStr) : List PyStr := valuesOf lower hs name

/-- Header values that are lists, and the elements of these lists. -/
inductive AllLists {α : Type} (Item : PyStr → α → Prop) : List PyStr → List α → Prop where
  | nil : AllLists Item [] []
  | cons {v l vs as} : ListOf Item v l → AllLists Item vs as → AllLists Item (v :: vs) (l ++ as)

/-- The `Connection` headers include the token "upgrade". -/
def HasUpgrade (hs : List (PyStr × PyStr)) : Prop :=
  ∃ ts, AllLists TokItem (values hs p!"Connection") ts ∧ ∃ t ∈ ts, lower t = p!"upgrade"

/-- The `Upgrade` headers consist of the protocol "websocket". -/
def UpgradeIsWebsocket (hs : List (PyStr × PyStr)) : Prop :=
  ∃ u, AllLists ProtocolItem (values hs p!"Upgrade") [u] ∧ lower u = p!"websocket"

/-- The base64 encoding of 16 bytes. -/
def ValidKey (key : PyStr) : Prop :=
  ∃ cs, cs.length = 22 ∧ (∀ c ∈ cs, c ∈ b64Alphabet) ∧ key = cs ++ p!"=="

/-- There is one `Sec-WebSocket-Key` header, which is valid. -/
def KeyIs (hs : List (PyStr × PyStr)) (key : PyStr) : Prop :=
  values hs p!"Sec-WebSocket-Key" = [key] ∧ ValidKey key

/-- There is one `Sec-WebSocket-Version` header, equal to 13. -/
def VersionOk (hs : List (PyStr × PyStr)) : Prop :=
  values hs p!"Sec-WebSocket-Version" = [p!"13"]

/-- There is at most one `Origin` header, and the origin (or its absence, `none`) is allowed. -/
def OriginIs (origins : Option (List (Option PyStr))) (hs : List (PyStr × PyStr))
    (origin : Option PyStr) : Prop :=
  values hs p!"Origin" = origin.toList ∧ ∀ os, origins = some os → origin ∈ os

/-- A valid handshake request. -/
structure ValidRequest (origins : Option (List (Option PyStr))) (hs : List (PyStr × PyStr))
    (key : PyStr) (origin : Option PyStr) : Prop where
  connection : HasUpgrade hs
  upgrade : UpgradeIsWebsocket hs
  key : KeyIs hs key
  version : VersionOk hs
  origin : OriginIs origins hs origin

/-- Every value of a header is a list. -/
def WellFormed {α : Type} (Item : PyStr → α → Prop) (hs : List (PyStr × PyStr)) (name : PyStr) : Prop :=
  ∃ as, AllLists Item (values hs name) as

/-- The status code that a request deserves.  `ext` and `sub` tell whether the server supports
extensions and subprotocols: it ignores these headers otherwise. -/
inductive Verdict (origins : Option (List (Option PyStr))) (ext sub : Bool)
    (hs : List (PyStr × PyStr)) : Int → Prop where
  | badConnection : ¬ WellFormed TokItem hs p!"Connection" → Verdict origins ext sub hs 400
  | notUpgrade : WellFormed TokItem hs p!"Connection" → ¬ HasUpgrade hs →
      Verdict origins ext sub hs 426
  | badUpgrade : HasUpgrade hs → ¬ WellFormed ProtocolItem hs p!"Upgrade" →
      Verdict origins ext sub hs 400
  | notWebsocket : HasUpgrade hs → WellFormed ProtocolItem hs p!"Upgrade" →
      ¬ UpgradeIsWebsocket hs → Verdict origins ext sub hs 426
  | badKey : HasUpgrade hs → UpgradeIsWebsocket hs → (∀ key, ¬ KeyIs hs key) →
      Verdict origins ext sub hs 400
  | badVersion {key} : HasUpgrade hs → UpgradeIsWebsocket hs → KeyIs hs key → ¬ VersionOk hs →
      Verdict origins ext sub hs 400
  | manyOrigins {key} : HasUpgrade hs → UpgradeIsWebsocket hs → KeyIs hs key → VersionOk hs →
      2 ≤ (values hs p!"Origin").length → Verdict origins ext sub hs 400
  | badOrigin {key} : HasUpgrade hs → UpgradeIsWebsocket hs → KeyIs hs key → VersionOk hs →
      (values hs p!"Origin").length ≤ 1 → (∀ o, ¬ OriginIs origins hs o) →
      Verdict origins ext sub hs 403
  | badExtensions {key origin} : ValidRequest origins hs key origin → ext = true →
      ¬ WellFormed ExtItem hs p!"Sec-WebSocket-Extensions" → Verdict origins ext sub hs 400
  | badSubprotocols {key origin} : ValidRequest origins hs key origin →
      (ext = true → WellFormed ExtItem hs p!"Sec-WebSocket-Extensions") → sub = true →
      ¬ WellFormed TokItem hs p!"Sec-WebSocket-Protocol" → Verdict origins ext sub hs 400
  | accepted {key origin} : ValidRequest origins hs key origin →
      (ext = true → WellFormed ExtItem hs p!"Sec-WebSocket-Extensions") →
      (sub = true → WellFormed TokItem hs p!"Sec-WebSocket-Protocol") →
      Verdict origins ext sub hs 101

/-- Characters of a `str` that can be encoded. -/
def Encodable (s : PyStr) : Prop := ∀ c ∈ s, IsScalar c

/-- The position of an element in a list. -/
def position (l : List PyStr) (x : PyStr) : Nat := (l.takeWhile (· ≠ x)).length

/-- The sum of the positions of a subprotocol in both lists. -/
def rank (client server : List PyStr) (x : PyStr) : Nat := position client x + position server x

/-- A common subprotocol with the lowest rank; `none` if there is no common subprotocol. -/
def BestSubprotocol (client server : List PyStr) : Option PyStr → Prop
  | none => ∀ q ∈ client, q ∉ server
  | some p => p ∈ client ∧ p ∈ server ∧
      ∀ q ∈ client, q ∈ server → rank client server p ≤ rank client server q

end WS.Spec
