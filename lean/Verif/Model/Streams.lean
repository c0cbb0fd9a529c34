import Verif.Model.Prelude

/-!
# /repo/src/websockets/streams.py

`StreamReader` and the generator-based coroutines built from its read methods.
-/

namespace WS

/-- streams.py 14-16: attributes of `StreamReader`. -/
structure Reader where
  buf : Bytes
  eof : Bool
deriving DecidableEq, Repr

/-- streams.py 15-16 -/
def Reader.init : Reader := ⟨[], false⟩

/-- A generator-based coroutine that ends by returning an `α` or raising, and that suspends
(`yield`) only inside the read methods of `StreamReader`.  A node is a pending call of a read
method together with the rest of the generator, which receives the returned value or the
raised exception.

`readLine p k` is a suspended or starting `read_line()` whose local variable `p` (streams.py
line 30) has the given value; a starting call has `p = 0`. -/
inductive Coro (α : Type) : Type where
  | ret (a : α) : Coro α
  | raise (e : Exc) : Coro α
  | readLine (p : Nat) (k : Except Exc Bytes → Coro α) : Coro α
  | readExact (n : Nat) (k : Except Exc Bytes → Coro α) : Coro α
  | readToEof (k : Bytes → Coro α) : Coro α

namespace Coro

/-- `yield from c`, then continue with its value (as in http11.py 84-103). -/
def bind {α β : Type} : Coro α → (α → Coro β) → Coro β
  | ret a, f => f a
  | raise e, _ => raise e
  | readLine p k, f => readLine p fun x => (k x).bind f
  | readExact n k, f => readExact n fun x => (k x).bind f
  | readToEof k, f => readToEof fun x => (k x).bind f

instance : Monad Coro where
  pure := ret
  bind := bind

/-- `try: return (yield from c) except Exception as e: return (yield from h(e))` (as in http11.py 84-88). -/
def tryCatch {α : Type} : Coro α → (Exc → Coro α) → Coro α
  | ret a, _ => ret a
  | raise e, h => h e
  | readLine p k, h => readLine p fun x => (k x).tryCatch h
  | readExact n k, h => readExact n fun x => (k x).tryCatch h
  | readToEof k, h => readToEof fun x => (k x).tryCatch h

/-- Continue a generator with the outcome of a read (streams.py 18-73). -/
def ofExcept {α : Type} : Except Exc α → Coro α
  | .ok a => ret a
  | .error e => raise e

/-- `yield from read_line()` (streams.py 18-41) -/
def line : Coro Bytes := readLine 0 ofExcept

/-- `yield from read_exact(n)` (streams.py 43-60) -/
def exact (n : Nat) : Coro Bytes := readExact n ofExcept

/-- `yield from read_to_eof()` (streams.py 62-73) -/
def toEof : Coro Bytes := readToEof ret

end Coro

/-- `buffer.find(b"\n", p)` (streams.py 32); `none` stands for `-1`. -/
def findLF (buf : Bytes) (p : Nat) : Option Nat :=
  ((buf.drop p).findIdx? (· == 10)).map (· + p)

/-- What `next(generator)` does: the generator returns, raises, or yields. -/
inductive Outcome (α : Type) where
  | done (a : α) (r : Reader)
  | raised (e : Exc) (r : Reader)
  | blocked (c : Coro α) (r : Reader)

/-- Resume a coroutine on a reader and run it until it returns, raises or yields.

* `readLine`: streams.py 31-41.
* `readExact`: streams.py 52-60 (`n` is a natural number, so the assertion on line 52 holds).
* `readToEof`: streams.py 69-73.

Messages of `EOFError` are not modelled. -/
def Coro.run {α : Type} : Coro α → Reader → Outcome α
  | ret a, r => .done a r
  | raise e, r => .raised e r
  | readLine p k, r =>
    match findLF r.buf p with
    | some i => (k (.ok (r.buf.take (i + 1)))).run { r with buf := r.buf.drop (i + 1) }
    | none =>
      if r.eof then (k (.error .eofError)).run r
      else .blocked (readLine r.buf.length k) r
  | readExact n k, r =>
    if r.buf.length < n then
      if r.eof then (k (.error .eofError)).run r
      else .blocked (readExact n k) r
    else (k (.ok (r.buf.take n))).run { r with buf := r.buf.drop n }
  | readToEof k, r =>
    if r.eof then (k r.buf).run { r with buf := [] }
    else .blocked (readToEof k) r

/-- streams.py 75-89 `at_eof`: `none` means that it yields. -/
def Reader.atEof (r : Reader) : Option Bool :=
  if r.buf ≠ [] then some false
  else if r.eof then some true
  else none

/-- streams.py 91-102 -/
def Reader.feedData (r : Reader) (data : Bytes) : Except Exc Reader :=
  if r.eof then .error .eofError else .ok { r with buf := r.buf ++ data }

/-- streams.py 104-115 -/
def Reader.feedEof (r : Reader) : Except Exc Reader :=
  if r.eof then .error .eofError else .ok { r with eof := true }

end WS
