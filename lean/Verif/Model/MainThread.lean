import Verif.Model.Interactive

/-!
# The process of the interactive client: /repo/src/websockets/__main__.py `main`, `exit_from_event_loop_thread`

The main thread reads lines; another thread runs the event loop, with `run_client` (`Verif.Model.Interactive`).  The main
thread gives callbacks to the event loop with `call_soon_threadsafe`, which runs them in the same order.  The other thread
sends SIGINT to the process; the user too, with Ctrl-C.  Python raises `KeyboardInterrupt` in the main thread, at some
later time, whatever it's doing; several signals that are pending count for one.

Threads may be interleaved in any way.  Not modelled: parsing the command line (167-174), the terminal of Windows (150-160);
exceptions in `print_during_input` and `print_over_input`, except in the `finally` clause of `run_client`.
-/

namespace WS.MainThread

open WS.Interactive

variable {M : Type}

/-- What the main thread gives to `call_soon_threadsafe` -/
inductive Callback where
  /-- 200: `inputs.put_nowait` -/
  | put (line : PyStr)
  /-- 202: `stop.set_result` -/
  | setStop
deriving DecidableEq

/-- Where the main thread is. -/
inductive Main where
  /-- 192: in `thread.start` -/
  | starting
  /-- 199: in `input` -/
  | reading
  /-- 201-202: `input` returned -/
  | scheduling (line : PyStr)
  /-- 203-204: it caught `KeyboardInterrupt` or `EOFError` -/
  | caught
  /-- 205: in `thread.join` -/
  | joining
  /-- 207-211 -/
  | closing
  /-- `main` returned -/
  | done
  /-- `main` raised `KeyboardInterrupt`: the interpreter displays a traceback and waits for the other thread -/
  | crashed
  /-- this was interrupted: the process exits -/
  | killed
deriving DecidableEq

structure Proc (M : Type) where
  main : Main := .starting
  /-- callbacks that didn't run yet -/
  callbacks : List Callback := []
  client : Client M
  /-- `run_client` raised an exception: nothing calls `loop.stop` -/
  raised : Bool := false
  /-- `loop.run_forever` returned: the other thread ended. -/
  ended : Bool := false
  /-- SIGINT is pending -/
  signal : Bool := false
  /-- `loop.close()` was called -/
  loopClosed : Bool := false
  /-- `stop.set_result` raised `InvalidStateError` -/
  invalidState : Bool := false
deriving DecidableEq

inductive Ev (M : Type) where
  /-- `thread.start` returns -/
  | started
  /-- `input` returns a line -/
  | typed (line : PyStr)
  /-- the user presses Ctrl-D: `input` raises `EOFError` -/
  | eof
  /-- the user presses Ctrl-C -/
  | ctrlC
  /-- `KeyboardInterrupt` is raised in the main thread -/
  | deliver
  /-- the main thread calls `call_soon_threadsafe` -/
  | schedule
  /-- `thread.join` returns -/
  | joined
  /-- `loop.close` returns -/
  | closeLoop
  /-- the event loop runs a callback -/
  | callback
  /-- the event loop runs something else (not `type` and `interrupt`) -/
  | client (a : Act M)
  /-- an exception is raised in the `finally` clause of `run_client`, for example by `close` -/
  | clientRaises
  /-- `run_forever` returns -/
  | threadEnds

/-- What the event loop does by itself (__main__.py 97-146): callbacks are treated separately. -/
def isClient : Act M → Bool
  | .type _ | .interrupt => false
  | _ => true

/-- `KeyboardInterrupt` is raised here (__main__.py 195-211). -/
def Main.interrupted : Main → Main
  | .starting => .crashed
  | .reading | .scheduling _ => .caught
  | .caught | .joining | .closing => .crashed
  | .crashed => .killed
  | .done => .done
  | .killed => .killed

/-- `main` returned or raised an exception, and isn't waiting for the other thread (__main__.py 149-211). -/
def Proc.over (p : Proc M) : Bool :=
  p.main = .done || p.main = .killed || (p.main = .crashed && p.ended)

/-- __main__.py 49-56: SIGINT is sent. -/
def interrupts (o : List (Obs M)) : Bool :=
  o.any fun
    | .exits b => b
    | _ => false

/-- __main__.py 97-146: a step of the event loop; 51-56: SIGINT if `run_client` exits and `stop` isn't done -/
def Proc.stepClient (p : Proc M) (a : Act M) : Option (Proc M × List (Obs M)) :=
  match p.client.step a with
  | none => none
  | some (c, o) => some ({ p with client := c, signal := p.signal || interrupts o }, o)

/-- One step, if it's possible (__main__.py 149-211). -/
def step (p : Proc M) : Ev M → Option (Proc M × List (Obs M))
  | .started => if p.main = .starting then some ({ p with main := .reading }, []) else none
  | .typed line => if p.main = .reading ∧ p.signal = false then some ({ p with main := .scheduling line }, []) else none
  | .eof => if p.main = .reading ∧ p.signal = false then some ({ p with main := .caught }, []) else none
  | .ctrlC => if p.over then none else some ({ p with signal := true }, [])
  | .deliver =>
    if p.signal = true ∧ p.over = false then some ({ p with signal := false, main := p.main.interrupted }, []) else none
  | .schedule =>
    match p.main with
    | .scheduling line => some ({ p with main := .reading, callbacks := p.callbacks ++ [.put line] }, [])
    | .caught => some ({ p with main := .joining, callbacks := p.callbacks ++ [.setStop] }, [])
    | _ => none
  | .joined => if p.main = .joining ∧ p.ended = true then some ({ p with main := .closing }, []) else none
  | .closeLoop => if p.main = .closing then some ({ p with main := .done, loopClosed := true }, []) else none
  | .callback =>
    if p.ended then none
    else
      match p.callbacks with
      | [] => none
      | .put line :: cs => { p with callbacks := cs }.stepClient (.type line)
      | .setStop :: cs =>
        if p.client.stop then some ({ p with callbacks := cs, invalidState := true }, [])
        else { p with callbacks := cs }.stepClient .interrupt
  | .client a => if p.ended ∨ p.raised ∨ isClient a = false then none else p.stepClient a
  | .clientRaises =>
    match p.client.phase with
    | .closing => if p.ended ∨ p.raised then none else some ({ p with raised := true }, [])
    | _ => none
  -- 48: `loop.stop()` was called
  | .threadEnds =>
    match p.client.phase with
    | .exited => if p.ended then none else some ({ p with ended := true }, [])
    | _ => none

/-- A sequence of steps (__main__.py 149-211). -/
def exec (p : Proc M) : List (Ev M) → Option (Proc M × List (Obs M))
  | [] => some (p, [])
  | e :: es =>
    match step p e with
    | none => none
    | some (p, o) =>
      match exec p es with
      | none => none
      | some (p, os) => some (p, o ++ os)

/-- __main__.py 176-195: the threads start. -/
def init (maxQueue : Option Nat) : Proc M := { client := Client.init maxQueue }

end WS.MainThread
