import Verif.Model.LegacyRead

/-!
# What the interactive client displays: /repo/src/websockets/__main__.py 59-88, 97-146

`print_during_input` and `print_over_input` write escape sequences for a VT100 terminal.  The terminal isn't part of the
repository; `Term` describes it as far as these sequences are concerned:

* the terminal driver turns LF into CR LF (ONLCR);
* every printable character takes one column; characters that aren't modelled are ignored;
* a character in the last column doesn't move the cursor; the next one goes to the next line (DECAWM);
* there are no scrolling margins and no other escape sequences (they're ignored after two or three characters);
* lines that scroll off the top of the screen are kept.
-/

namespace WS.Terminal

/-- The characters of a line. -/
abbrev Line := Nat → Nat

/-- A line of spaces (terminal, not in /repo) -/
def blank : Line := fun _ => 32

/-- Where the terminal is in an escape sequence. -/
inductive Mode where
  | ground
  | esc
  | csi
deriving DecidableEq, Repr

structure Term where
  height : Nat
  width : Nat
  /-- Lines that scrolled off the top of the screen, oldest first. -/
  scrollback : List Line := []
  /-- Lines on the screen: 0 to `height - 1`. -/
  rows : Nat → Line := fun _ => blank
  row : Nat := 0
  col : Nat := 0
  /-- The next character goes to the next line. -/
  wrap : Bool := false
  saved : Nat × Nat × Bool := (0, 0, false)
  mode : Mode := .ground

namespace Term

/-- LF: the cursor moves to the next line; on the last line, the screen scrolls (terminal, not in /repo). -/
def newline (t : Term) : Term :=
  if t.row + 1 < t.height then { t with row := t.row + 1, col := 0, wrap := false }
  else { t with scrollback := t.scrollback ++ [t.rows 0]
                rows := fun i => if i + 1 = t.height then blank else t.rows (i + 1)
                col := 0, wrap := false }

/-- Display a character (terminal, not in /repo). -/
def put (t : Term) (c : Nat) : Term :=
  let t := if t.wrap then t.newline else t
  let rows := fun i => if i = t.row then fun j => if j = t.col then c else t.rows i j else t.rows i
  if t.col + 1 < t.width then { t with rows, col := t.col + 1 } else { t with rows, wrap := true }

/-- A character that is displayed (terminal, not in /repo) -/
def isPrintable (c : Nat) : Bool := 32 ≤ c && c ≠ 127 && !(128 ≤ c && c < 160)

/-- Process a character (terminal, not in /repo). -/
def feed (t : Term) (c : Nat) : Term :=
  match t.mode with
  | .ground =>
    if c = 27 then { t with mode := .esc }
    else if c = 10 then t.newline
    else if c = 13 then { t with col := 0, wrap := false }
    else if isPrintable c then t.put c
    else t
  | .esc =>
    let t := { t with mode := .ground }
    -- ESC 7: save the position of the cursor
    if c = 55 then { t with saved := (t.row, t.col, t.wrap) }
    -- ESC 8: restore it
    else if c = 56 then { t with row := t.saved.1, col := t.saved.2.1, wrap := t.saved.2.2 }
    else if c = 91 then { t with mode := .csi }
    else t
  | .csi =>
    let t := { t with mode := .ground }
    -- CSI A: up
    if c = 65 then { t with row := t.row - 1, wrap := false }
    -- CSI B: down
    else if c = 66 then { t with row := min (t.row + 1) (t.height - 1), wrap := false }
    -- CSI L: insert a line
    else if c = 76 then
      { t with rows := fun i => if i < t.row then t.rows i else if i = t.row then blank else t.rows (i - 1)
               col := 0, wrap := false }
    -- CSI K: erase to the end of the line
    else if c = 75 then
      { t with rows := fun i => if i = t.row then fun j => if j < t.col then t.rows i j else 32 else t.rows i
               wrap := false }
    else t

/-- Process characters (terminal, not in /repo). -/
def feedAll (t : Term) (s : PyStr) : Term := s.foldl feed t

end Term

/-- __main__.py 59-76 `print_during_input` -/
def printDuringInput (s : PyStr) : PyStr :=
  [27, 55] ++ [10] ++ [27, 91, 65] ++ [27, 91, 76] ++ s ++ [10] ++ [27, 56] ++ [27, 91, 66]

/-- __main__.py 79-88 `print_over_input` -/
def printOverInput (s : PyStr) : PyStr := [13] ++ [27, 91, 75] ++ s ++ [10]

/-- `bytes.hex()` (__main__.py 131) -/
def hexDigit (n : Nat) : Nat := if n < 10 then 48 + n else 87 + n

/-- `bytes.hex()` (__main__.py 131) -/
def hex (b : Bytes) : PyStr := b.flatMap fun x => [hexDigit (x.toNat / 16), hexDigit (x.toNat % 16)]

/-- __main__.py 128-131: what is displayed for a message -/
def display : Data → PyStr
  | .text s => p!"< " ++ s
  | .binary b => p!"< (binary) " ++ hex b

/-- What is written to the terminal: a message is received (125-128); the user types a character, which is echoed, or presses
Enter, and `input` displays the prompt again (199); the client displays a message before it ends (100, 142). -/
inductive Output where
  | message (m : Data)
  | connected (s : PyStr)
  | key (c : Nat)
  | enter
  | last (s : PyStr)

/-- What is written (__main__.py 59-88, 100-104, 129-131, 144, 201) -/
def Output.chars : Output → PyStr
  | .message m => printDuringInput (display m)
  | .connected s => printDuringInput s
  | .key c => [c]
  | .enter => [10] ++ p!"> "
  | .last s => printOverInput s

end WS.Terminal
