import Verif.Model.Pmd

/-!
# Specification of permessage-deflate (RFC 7692)

Nothing here refers to the code of the extension: only to parameters, frames, and to the interface
of `zlib`.
-/

namespace WS.Spec

/-- RFC 7692, section 7.1.2: window sizes are decimal integers between 8 and 15 without leading
zeroes. -/
def windowValues : List PyStr :=
  [p!"8", p!"9", p!"10", p!"11", p!"12", p!"13", p!"14", p!"15"]

/-- A parameter that may appear in a request (`request = true`) or in a response. -/
inductive ParamOk (request : Bool) : ExtParam → Prop where
  | serverNct : ParamOk request (p!"server_no_context_takeover", none)
  | clientNct : ParamOk request (p!"client_no_context_takeover", none)
  | serverBits {v} : v ∈ windowValues → ParamOk request (p!"server_max_window_bits", some v)
  | clientBits {v} : v ∈ windowValues → ParamOk request (p!"client_max_window_bits", some v)
  | clientAny : request = true → ParamOk request (p!"client_max_window_bits", none)

/-- Lists of parameters that may be accepted: known names, values in range, no duplicates. -/
def ValidParams (request : Bool) (params : List ExtParam) : Prop :=
  (∀ p ∈ params, ParamOk request p) ∧ (params.map (·.1)).Nodup

/-- The decimal number that a window size stands for. -/
def WindowIs (v : PyStr) (n : Nat) : Prop :=
  (v, n) ∈ [(p!"8", 8), (p!"9", 9), (p!"10", 10), (p!"11", 11), (p!"12", 12), (p!"13", 13),
    (p!"14", 14), (p!"15", 15)]

/-- What a list of parameters says. -/
structure Means (params : List ExtParam) (p : PmdParams) : Prop where
  serverNct : p.serverNct = true ↔ (p!"server_no_context_takeover", none) ∈ params
  clientNct : p.clientNct = true ↔ (p!"client_no_context_takeover", none) ∈ params
  serverBits : ∀ n, p.serverBits = some n ↔
    ∃ v, WindowIs v n ∧ (p!"server_max_window_bits", some v) ∈ params
  clientBits : ∀ n, p.clientBits = some (.val n) ↔
    ∃ v, WindowIs v n ∧ (p!"client_max_window_bits", some v) ∈ params
  clientAny : p.clientBits = some .any ↔ (p!"client_max_window_bits", none) ∈ params

/-- Frames of successive messages, each possibly fragmented, with control frames anywhere.  The
first argument tells whether a message is in progress.  No reserved bit is set. -/
inductive Fragments : Bool → List Frame → Prop where
  | nil {u} : Fragments u []
  | ctrl {u f fs} : f.opcode.isCtrl = true → Fragments u fs → Fragments u (f :: fs)
  | start {f fs} : f.opcode = .text ∨ f.opcode = .binary → f.rsv1 = false →
      Fragments (!f.fin) fs → Fragments false (f :: fs)
  | cont {f fs} : f.opcode = .cont → Fragments (!f.fin) fs → Fragments true (f :: fs)

/-- What is assumed about `zlib`.

`Sync e d` means that the decoder `d` has been given everything that the encoder `e` has produced,
after a sync flush.  (RFC 1951 and the documentation of zlib: a raw deflate stream is decoded by a
decoder with a window that is at least as large; a sync flush makes all data available to the
decoder, and ends with an empty uncompressed block.)

Compressing always is `compress(data) + flush(Z_SYNC_FLUSH)`.  Decompressing with a limit that the
data fits in gives all of it; a limit of zero means no limit. -/
structure Contract (Z : Zlib) where
  Sync : Z.Enc → Z.Dec → Prop
  init : ∀ {w w' s e}, w ≤ w' → Z.compressobj w s = .ok e → Sync e (Z.decompressobj w')
  step : ∀ {e d} data, Sync e d →
    emptyBlock <:+ (Z.compress e data).1 ++ (Z.flush (Z.compress e data).2).1 ∧
    ∀ max : Int, max = 0 ∨ (data.length : Int) ≤ max →
      ∃ d', Z.decompress d ((Z.compress e data).1 ++ (Z.flush (Z.compress e data).2).1) max =
          (.ok data, d') ∧
        Z.unconsumedTail d' = [] ∧ Sync (Z.flush (Z.compress e data).2).2 d'

/-- The documentation of `decompress(data, max_length)`: "the return value will be no longer than
max_length" (zero means no limit).  It raises an exception if `max_length` is negative. -/
structure Bounded (Z : Zlib) : Prop where
  le : ∀ {d data max out d'}, 0 < max → Z.decompress d data max = (.ok out, d') →
    (out.length : Int) ≤ max
  negative : ∀ d data max, max < 0 → ∃ e d', Z.decompress d data max = (.error e, d')

end WS.Spec
