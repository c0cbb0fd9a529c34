import Verif.Spec.Http

/-!
# RFC 7230 section 7 and RFC 6455 section 9.1: the grammar of header values
-/

namespace WS.Spec

/-- Optional whitespace. -/
def Ows (s : PyStr) : Prop := ∀ c ∈ s, c = 32 ∨ c = 9

/-- Whitespace and commas. -/
def Gap (s : PyStr) : Prop := ∀ c ∈ s, c = 32 ∨ c = 9 ∨ c = 44

/-- A token. -/
def Tok (s : PyStr) : Prop := s ≠ [] ∧ ∀ c ∈ s, TokenChar c

/-- Elements separated by at least one comma, with whitespace and extra commas anywhere between
them and after the last one. -/
inductive Elements {α : Type} (Item : PyStr → α → Prop) : PyStr → List α → Prop where
  | last {x a trail} : Item x a → Gap trail → Elements Item (x ++ trail) [a]
  | cons {x a sep rest as} : Item x a → Gap sep → 44 ∈ sep → Elements Item rest as →
      Elements Item (x ++ sep ++ rest) (a :: as)

/-- `1#element`, with empty elements: the elements may follow commas and whitespace, starting with a
comma. -/
def ListOf {α : Type} (Item : PyStr → α → Prop) (header : PyStr) (as : List α) : Prop :=
  ∃ lead rest, header = lead ++ rest ∧ Gap lead ∧ (lead = [] ∨ lead.head? = some 44) ∧
    Elements Item rest as

/-- An element that is a token. -/
def TokItem (x a : PyStr) : Prop := x = a ∧ Tok a

/-- `protocol = protocol-name ["/" protocol-version]` -/
def ProtocolItem (x a : PyStr) : Prop :=
  x = a ∧ (Tok a ∨ ∃ n v, Tok n ∧ Tok v ∧ a = n ++ p!"/" ++ v)

/-- The text between the quotes of a quoted string, and the string it stands for.  (RFC 7230 also
allows characters from 0x80 to 0xFF outside quoted pairs.) -/
inductive QuotedText : PyStr → PyStr → Prop where
  | nil : QuotedText [] []
  | text {c s v} : c = 9 ∨ (0x20 ≤ c ∧ c ≤ 0x7E) → c ≠ 0x22 → c ≠ 0x5C → QuotedText s v →
      QuotedText (c :: s) (c :: v)
  | pair {c s v} : c = 9 ∨ (0x20 ≤ c ∧ c ≤ 0x7E) ∨ (0x80 ≤ c ∧ c ≤ 0xFF) → QuotedText s v →
      QuotedText (0x5C :: c :: s) (c :: v)

/-- `extension-param = token [ "=" (token | quoted-string) ]`, where the content of the quoted string
is a token. -/
inductive ParamItem : PyStr → PyStr × Option PyStr → Prop where
  | flag {n} : Tok n → ParamItem n (n, none)
  | token {n o1 o2 v} : Tok n → Ows o1 → Ows o2 → Tok v →
      ParamItem (n ++ o1 ++ p!"=" ++ o2 ++ v) (n, some v)
  | quoted {n o1 o2 q v} : Tok n → Ows o1 → Ows o2 → QuotedText q v → Tok v →
      ParamItem (n ++ o1 ++ p!"=" ++ o2 ++ p!"\"" ++ q ++ p!"\"") (n, some v)

/-- `*( ";" extension-param )` -/
inductive ParamItems : PyStr → List (PyStr × Option PyStr) → Prop where
  | nil : ParamItems [] []
  | cons {o1 o2 x p rest ps} : Ows o1 → Ows o2 → ParamItem x p → ParamItems rest ps →
      ParamItems (o1 ++ p!";" ++ o2 ++ x ++ rest) (p :: ps)

/-- `extension = extension-token *( ";" extension-param )` -/
def ExtItem (x : PyStr) (e : PyStr × List (PyStr × Option PyStr)) : Prop :=
  ∃ ps, x = e.1 ++ ps ∧ Tok e.1 ∧ ParamItems ps e.2

end WS.Spec
