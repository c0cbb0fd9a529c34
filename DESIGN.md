# Formal model of websockets: design

## Trusted base

* Lean 4.33.0's kernel. The only axioms theorems may depend on are Lean's standard
  `propext`, `Classical.choice`, `Quot.sound`. No project axioms, no `sorry`, no
  `native_decide`, no `bv_decide`.
* The faithfulness of the hand-written model to the Python/C text in /repo. Every model
  definition cites the file and lines it mirrors and says where it simplifies.
* Library behaviour written down by us rather than derived from CPython sources in /repo:
  `struct` packing, `bytes.split/strip/find`, `int()`, UTF-8 codec, base64 codec, SHA-1, `re`
  for the few regular expressions used, `dict`/`list` semantics, generator semantics
  (`yield` = return "blocked" with the rest of the computation), asyncio scheduling (legacy
  part: tasks interleave only at `await` points that actually suspend), `asyncio.StreamReader`.
* zlib is not modelled: permessage-deflate theorems quantify over every codec satisfying an
  explicit contract (a Lean structure), with a concrete inhabitant to show it is satisfiable.

## Layout (`lean/Verif`)

* `Model/*`  – the code, function by function, shallow total functions, exceptions as values.
* `Spec/*`   – independent specifications (RFC wire format, UTF-8, message grammar, ...),
  which do not mention the model.
* `Lemmas/*` – helper lemmas.
* `Props/*`  – the property theorems, one file per group, each with a concrete example.

## Modelling decisions

* Bytes are `List UInt8`; Python `str` is a list of code points (`List Nat`), so lone
  surrogates (which Python's `surrogateescape` produces) exist in the model.
* Generator-based coroutines are a free monad `Coro` over the read primitives of
  `StreamReader`; running one on a buffer either finishes, raises, or blocks with a residual
  coroutine. The infinite `Connection.parse` loop is a recursive function on the buffer whose
  suspension points are an explicit parser state.
* `Connection` is a record of the attributes the Python object has; every public method is a
  function to a new record and a result-or-exception. Randomness (masking keys) is an
  oracle `Nat → key` plus a counter.
* Extensions are arbitrary: the connection is parameterised by a type of extension states and
  their `encode`/`decode`; permessage-deflate is an instance.
* Logging is not modelled. Python-level type errors (passing an int where bytes are expected)
  are not modelled.
* The legacy asyncio code is modelled as transition systems, one per concern
  (receive queue, sends, pings, closing, server registry), whose steps are the code segments
  between suspension points; theorems are invariants over all schedules.

## Per-property plan

| id | modelled code | proof method |
|----|---------------|--------------|
| C01 | frames.py parse/serialize/check, utils.apply_mask | round-trip, algebra on bytes |
| C02 | frames.py serialize | equality with an RFC wire spec |
| C03 | frames.py parse | iff with a relational wire spec, by cases on the header |
| C04 | frames.py parse | run of the parser on the header prefix |
| C05 | utils.apply_mask, speedups.c both paths | induction on blocks, word-level XOR |
| C06 | parse_close, serialize_close, check_close | decision logic + UTF-8 round-trip |
| C07 | UTF-8 codec as used by str.encode/bytes.decode | decode = some s ↔ encode s |
| C08 | legacy read_message (incremental decoder) | simulation, induction on fragments |
| C09 | streams, http11 parse, connection parse/step_parser, client/server parse | resumption lemma for `Coro`, then for the loop |
| C10 | streams.py | induction on `Coro` |
| C11-C15 | connection.py all methods | invariants over operation histories |
| C16 | connection.py parse + frames.parse; legacy receiver from bytes to `recv` | invariant on received message sizes |
| C17 | same | forward simulation; false in full (see Disagreements) → `_partial` |
| C18, C19 | connection.py parse | refinement of the loop to a fold over frames |
| C20, C21, C22 | step_parser, fail_connection | case analysis, length bound of messages; totality |
| C23 | two connections | C01 + C09 + C15 |
| C24 | send_frame, Frame.serialize/parse | invariant on outputs |
| C25 | connection.py parse | false: negation with witness; partial |
| C26, C27 | http11.py | round-trip through line splitting; C26 is false for paths that aren't ASCII → partial |
| C28, C30 | http11.py | inversion of the parsers |
| C29 | http11.py parse_line, streams.read_line | false: negation for every N; partial |
| C31 | datastructures.py Headers | refinement to a list of pairs |
| C32 | Headers.copy with a heap for inner lists | false: negation; partial |
| C33, C34, C35 | headers.py | relational grammar / round-trips |
| C36, C37, C38 | headers.py basic auth, base64 | round-trips; C37 false → partial |
| C39-C42 | server.py, client.py | decision logic against a separate spec |
| C43 | the client and server connections exchanging their bytes, in any pieces | composition of C09, C26, C27, C34, C39, C42, C46, C47; false for a window of 8 bits → partial: relation between the factories of both sides (`Compatible`), proved for permessage-deflate and preserved by lists of factories with distinct names; headers can be sent; the application doesn't override handshake headers |
| C44, C45 | select_subprotocol | relation over all set orders; C45 false → partial |
| C46 | process_extensions on both sides | induction on offers |
| C47, C48 | permessage_deflate factories | decision logic on parameters; `C47_windows` says which windows are used |
| C49, C50 | PerMessageDeflate encode/decode | simulation under the zlib contract |
| C51-C53 | legacy recv/transfer_data | transition system invariants |
| C54 | legacy send | transition system; false for async iterables and cancellations → partial.  For all executions: `C54_until_partial` (messages are sent without interleaving until a data frame starts a message in the middle of another), `C54_contiguous_iff` |
| C55, C56 | legacy ping/pong | refinement; C56 false → partial |
| C57, C59 | legacy closing | invariant; decision logic |
| C58 | legacy close, write_close_frame, close_connection, fail_connection | accounting of times of arbitrary events; the time for aborting the transport counts separately |
| C60 | legacy/auth.py, legacy/server.py | exact characterization of accepted headers (RFC 7617) through `openingHandshake`; factory by induction on the list |
| C61 | legacy/client.py Connect, __await_impl__, handle_redirect | induction on attempts, for servers that know all that happened before; `C61_raises` says what is raised when the last answer is a redirect |
| C62 | http.py build_host, uri.py, ipaddress.ip_address | a small parser for `Host` recovers host and port; every ASCII URI without user information and IPvFuture host |
| C63 | legacy/server.py connection_made, handler, WebSocketServer | transition system (`Model/LegacyRegistry`), invariants over all event sequences; simulates the detailed model of handlers of C87 (`Props/LegacyOwner`); false for connections made late → partial |
| C64 | uri.py parse_uri, urllib.parse (Python 3.11) | round trip from a record of components through its text; decoding of `quote` |
| C65 | uri.py parse_uri, urllib.parse (Python 3.11) | character invariants through the splitting functions |
| C66 | legacy/server.py handler, handshake, write_http_response | reduction to the sans-I/O `process_request`, then `Verdict` |
| C67 | legacy/client.py handshake, Connect | iff with `ValidResponse` for the last attempt of the loop |
| C68 | legacy/client.py Connect.__init__, handle_redirect | invariants of the attempts; false for redirects from ws to wss |
| C69 | both connections with extensions, after the handshake of C43 | relation between the extensions of a sender and a receiver (`Channel`), preserved by encoding, decoding and whatever else happens on both sides; instance for permessage-deflate under the zlib contract (`Contract`, `Bounded`, `Faithful`), which a codec of stored blocks satisfies; `C69_configured` assumes nothing about the messages of the handshake: the request is made, it is a valid handshake, the response is 101 and both can be sent, for configurations with values of reasonable lengths (`Props/Ready`) |
| C70 | legacy/http.py, legacy/framing.py Frame.read, on `asyncio.StreamReader` (Python 3.11) | second interpreter of `Coro`; simulation between both readers over all interleavings of data, end of stream and task steps |
| C71 | `asyncio.StreamReader` flow control as used by legacy/protocol.py, reads of C70 | invariants of a transition system (data, end of stream, task steps, cancellation, new reads) |
| C72 | client.py `connect` (also used by `Model/LegacyClient`) | `connect` = list of lines of the specification, both directions; reading by C26, C34, C36, C38; `C72_valid`: the request is a valid handshake (the specification of C39); `C72_ready`: it can be sent, for a well-formed URI (`Props/Ready`) |
| C73 | C72 with uri.py `parse_uri` (`Model/Uri`) | false (witness `p%40x`); partial without percent-encoded characters |
| C74 | permessage_deflate.py `encode`, `decode` (`Model/Pmd`) | invariant over all interleavings of encoded and decoded frames |
| C75 | legacy/protocol.py `transfer_data`, `read_message`, `read_data_frame`, `read_frame` on the stream reader of C70, with the queue of C51 (`Model/LegacyTransfer`) | invariant of the composed transition system; simulation of C70 for each frame, `Channel` of C69 for extensions; invariant on the message in progress for close frames in the middle of a message (`C75_interrupted`, for any peer) |
| C76 | legacy/protocol.py `send` (`Model/LegacyConn`) to `recv` (`Model/LegacyTransfer`) | composition of C54 (with the order of messages), C57, C69 and C75; false when calls are cancelled or asynchronous iterators suspend → partial.  For all executions, with lawful extensions: `C76_until_partial` (messages are delivered until a message starts in the middle of another, then `transfer_data` fails) |
| C77 | legacy/protocol.py `_drain_helper`, `_drain`, `write_frame` (lines 1097-1099), `pause_writing`, `resume_writing`, `connection_lost` (lines 1412-1425) and `asyncio.Lock` (`Model/LegacyDrain`) | invariant of the transition system; ranking function for termination; order of the queue; a cancelled call can run at once and raises `CancelledError` (`C77_cancelled`), other calls don't raise it (`C77_uncancelled`) |
| C78 | uri.py parse_uri, urllib.parse, ipaddress (Python 3.11) | the components of an accepted string, by inversion of the splitting functions; `ipaddress` accepts exactly the addresses of the RFC 3986 grammar (`Spec/IpAddress`), by the correspondence of groups and parts |
| C79 | legacy keepalive_ping, ping, transfer_data, the message queue, flow control, cancellation by close_connection (`Model/LegacyKeepalive`) | transition system with a clock that only advances when no task can run; invariants relating deadlines, pending pings and the history of pings, arrivals and reads; a measure for progress; every message that is read is accounted for (`C79_messages`); simulation by `Model/LegacyConn` (`C79_conn`) |
| C80 | two `Connection`s exchanging everything they write (`Props/Closing`) | invariant `Shut` of all calls; frames accepted by a reader are frames written by the peer (C12, C19, C20); for extensions that are lawful and tame, which holds without extensions and for permessage-deflate if zlib returns less than 2^64 bytes and only raises documented exceptions (`Spec.Physical`, `Lemmas/PmdTame`); `C80_session` starts at the beginning of the connection, by C43 (`Props/Lifecycle`) |
| C81 | same (`Props/ClosingCodes`) | the close frames that each side writes and accepts, along all calls; false if a ping crosses the close frame → partial (no call of `receive_data` raises); `C81_session_partial` starts at the beginning of the connection, by C43 (`Props/Lifecycle`) |
| C82 | legacy/protocol.py `close`, `ensure_open`, `transfer_data` (its suspension points), `write_frame`, `write_close_frame`, `close_connection`, `fail_connection`, `connection_lost` (`Model/LegacyLife`) | transition system with cancellation of every task at every suspension point; inductive invariant; why close frames are written; a weight that every step of the library decreases; a broken connection's code is final (`C82_broken`); `transfer_data` can always end with an error (`C82_reader`); simulation by `Model/LegacyConn` (`C82_conn`); false in five ways → partial |
| C83 | the opening handshake of `client.py`/`server.py` and of `legacy/client.py`/`legacy/server.py`/`legacy/http.py` on `asyncio.StreamReader`, at the level of bytes (no new model) | both servers are characterised by the same predicate on the request, both clients by the predicate of C34; composition with C26, C27, C43 and C59; refusals: a response whose status line isn't 101 never connects a client; false for `Transfer-Encoding` (26) and for a window of 8 bits → partial |
| C84 | sessions that mix both implementations after the handshake of C83 (no new model) | senders of both implementations are characterised by the same predicate (frames in turn, encoded by a channel, none after a close frame), receivers of both deliver what such frames carry; composition of C69, C75, C76 and C83; false when a legacy call to `send` is cancelled (`C84_cancel_false`) → partial.  For all executions of legacy senders: `C84_until_partial` |
| C85 | `imports.py` (`import_name`, `lazy_import`, both branches), Python's relative imports as a function of a world of modules (`Model/Imports`); the modules, names and calls to `lazy_import` of /repo as tables (`Model/ImportTables`, generated from the source text) | attributes iff declared and provided by the module that a relative specification of dots designates; conflicts iff a name is declared twice; eager and lazy agree; the tables are checked by evaluation in the kernel, which is exhaustive as they're finite; false for `dir()` (27) → partial |
| C86 | `__main__.py` `run_client`, composed with the queue of messages of the legacy protocol (`Model/LegacyQueue`); `main` as an environment that types lines and interrupts (`Model/Interactive`). Not modelled: the exit message; for the terminal, see C89 | invariant on the tasks `incoming` and the receivers in the queue; accounts of messages and lines over all executions; a budget of one iteration after `stop`; absence of deadlocks from `Tidy` of C52; false in two ways (28) → partial; `C86_calls` bounds the calls to `recv` |
| C87 | `legacy/server.py` `connection_made`, `handler` (lines 107-225), as an automaton over the life cycle of the connection of C82 (`Model/LegacyHandler`, `Server`); the opening handshake is an event with its outcome | invariant on phases; forward simulation into C82 for `C87_refines`; termination from the absence of stuck states in C82; the docstring's guarantee is false (29) → partial |
| C88 | `legacy/client.py` `Connect.__await_impl__`, `__aenter__`, `__aexit__` (lines 512-554), likewise (`Model/LegacyHandler`, `Client`); redirects are in C61, not here | as C87; false for cancellations of `connect` (30) → partial |
| C89 | `__main__.py` `print_during_input`, `print_over_input` and what `run_client` gives them, on a VT100 terminal (`Model/Terminal`: a cursor; the escape sequences that the code writes; lines wrap at the last column; lines that scroll off the top are kept) | each escape sequence by computation on a general screen; induction on the sequence of messages; false for messages that contain control characters or are too long, and to tell text from binary messages (31) → partial |
| C90 | `legacy/protocol.py` `__aiter__` (lines 440-453) as an automaton on top of the queue of C51 (`Model/LegacyIter`) | projection to an execution of the queue where a single task calls `recv`, then C51; false with `legacy_recv` (32), which the property excludes |
| C91 | `exceptions.py` `format_close`, `CLOSE_CODES`, the assertions of `ConnectionClosedOK` and `ConnectionClosedError` (`Model/FormatClose`) | injectivity of `str(int)` and a split at the first space; finite table; composed with C59 |
| C92 | `legacy/protocol.py` `open`, `closed`, `wait_closed` (401-438) on the connections of C59 (`Model/LegacyAttrs`) | invariants of C59 and C63, for every execution |
| C93 | constructors of `Connect`, `Serve`, `WebSocketCommonProtocol`, `WebSocketClientProtocol`, `WebSocketServerProtocol` as functions from keyword arguments to attributes (`Model/LegacyConfig`); values are opaque, except the ones that the code tests | case analysis on presence of arguments; `C93_place` by the induction of C61 |
| C94 | the receiver of C75 (bytes, `read_frame`, extensions, `read_message`, queue: `Model/LegacyTransfer`), with any peer | invariant over executions: payloads returned by `read_frame` are within the current limit (predicate on coroutines), sizes of messages, buffer of C71, queue of C52. Extensions are assumed to keep frames within the limit they're given: true without extensions; permessage-deflate violates it when the limit is 0 (`C16_legacy_false`, `C50_limit_false`) |
| C95, C96 | the connection of C54-C57 (`Model/LegacyConn`), in `Props/LegacyReplies` | what each step appends to the log of frames (`step_explained`), by cases on the code; equality of lists (C95) and provenance of close frames (C96) by induction on executions |
| C97 | `__main__.py` `main` from line 195, `exit_from_event_loop_thread`, and `run_client` of C86 (`Model/MainThread`): two threads, callbacks in order, SIGINT at any time. Not modelled: the command line, exceptions in `print_during_input` | invariant on the main thread and `stop`; a weight that every step of the threads decreases when `run_client` returned; projection to executions of C86 for lines and absence of deadlocks; false in four ways (37) → partial |
| C98 | `frames.py` 171-269 for data frames, `utils.py` 33-44 on Python objects, `speedups.c` 13-56 (`Model/BytesLike`): `bytes`, `bytearray`, `memoryview` with a format, items of several bytes and contiguity. Without extensions: permessage-deflate gives `bytes` objects to `serialize`. Little-endian integers | the output is a header that depends on `len`, followed by a payload; parsing it gives a frame and what follows; exact characterisation of the objects that are sent as their bytes and of the exceptions; false for items of several bytes (39) → partial |
| C99 | `speedups.c` 13-178 (`Model/Speedups`): buffers with addresses, loops with an index that is a `Py_ssize_t`, bitwise operations on 64-bit words, uninitialised output, owned references, failures of the CPython API at any call. `none` is undefined behaviour. Not modelled: the rule on effective types; the CPython API itself | the loops are total and equal to those of C05 by induction on the number of iterations; case analysis on the paths to `exit`; false for unaligned buffers (40) → partial |
| C100 | the model of C63 | a weight that every step of the server, of connections and of ending handlers decreases; if no step is possible, the server is closed (invariant: the task of the server refers to existing connections); false for clients that don't send a request (41) → partial |
| C101 | `exceptions.py` (`Model/Exceptions`: constructors, `str`, `BaseException.__reduce__`) | case analysis over classes, for all arguments; false for 14 classes (42) → partial |
| C102 | `Model/LegacySystem`: a server (the server of C63) with any number of connections, handlers and tasks described in detail (C82, C87); the code `close(1001)` isn't represented | invariant: at each step, a run of the model of C63 describes the server and each connection, so C63 is true of this server; each connection is a connection of C87; progress by case analysis; the executions exclude cancelling tasks that only the library knows, and a `close_timeout` that elapses before `close()` starts (`Spec.Ordinary`); shutting down: a weight decreases at each step, so it's bounded (`C102_bounded`), and nothing is stuck before `wait_closed()` returns, provided that handlers return and clients send their requests (`C102_ends_partial`, `C102_reaches_partial`); false for other clients (41, `C102_silent_false`) → partial |
| C103 | `Serve.__aenter__`, `__aexit__`, `__await__` and `WebSocketServer.wrap`, `close`, `wait_closed` (`Model/LegacyServe`): any number of tasks that use a `Serve` object, with the server of C102; asyncio servers are listening or not | invariant by induction on executions; if the object is entered once, the server is a server of C102, so C102 applies; leaving ends by lifting `C102_reaches_partial`; false if the object is entered twice (43) → partial |
| C104 | `LegacyLife` (C82: close, transfer_data, close_connection, fail_connection and their interleavings) with a clock (`Model/LegacyTimed`): code takes no time, so time elapses only when every task waits; timeouts elapse exactly when they should; asyncio loses an aborted connection within δ; everything else takes any time | each task that waits has a latest time at which `close()` ends, an invariant by induction on executions (`C104_close`); `close()` ends without anyone doing anything, by induction on the remaining time and on a measure (`C104_progress`, `C104_ends`); the same invariant without calls for connections that fail (`C104_failed`); lower bounds by the symmetric invariants (`C104_patient`, `C104_waits`); C58 has the same bound for one order of events |
| C105 | `connection_made` (write_limit), `write_frame`, `_drain`, `pause_writing`, `resume_writing`, `fail_connection` (the close frame that it writes without draining) (`Model/LegacyBuffer`: C77 with the size of the buffer of the transport; asyncio's high-water and low-water limits) | invariant: what exceeds the limit was written by calls that wait or were cancelled, by induction on executions; false if cancellations aren't counted (44) → partial |
| C106 | `local_address`, `remote_address`, `connection_made` (`Model/LegacyAddress`: `LegacyLife` preceded by `connection_made`; `get_extra_info` of plain transports and of TLS transports of asyncio, which forget the transport below before `connection_lost`) | induction on executions; the documented claim is false (45) → partial |
| C107 | constructors and `__str__` of the classes of exceptions.py (`Model/Exceptions`, as for C101) | by cases on the class; attributes as a table of positions and defaults, messages as texts; false for the number of headers (46) → partial |

## Disagreements between expectation and code

Claims that turned out to be false, each proved by a witness (theorem names in parentheses), and other behaviour found
on the way.  The theorems named `_partial` prove what remains.

Sans-I/O layer:

1. A ping received after the local close frame was sent makes `parse` call `pong()`, which raises `InvalidState` and
   fails the connection with 1011 (C17, C25 `_false`). Then this side never reports the close code of the peer
   (`C81_codes_false`), although the connection still ends (C80).
2. `send_text`/`send_binary` with `fin=False` in a state where sending raises still sets `expect_continuation_frame`
   (`C14_fragmentation_false`).
3. The remaining size for a fragmented message also limits interleaved control frames (C17); the limit of
   permessage-deflate is computed as 0 = unlimited when exactly the maximum was reached (`C16_max_size_false`, C50).
   `max_size` also limits the compressed size of a frame: a message within the limit is refused if compression made
   it longer than the limit.
4. After `receive_eof()` in state OPEN, `send_text` writes after the `SEND_EOF` marker (C12).
5. `Headers.copy` is shallow (`C32_copy_false`); `Headers.get_all` returns the internal list; `get`/`setdefault`
   raise `MultipleValuesError`.
6. `build_extension`'s quoted strings and the parser disagree on `\x80-\xff` (`C35_round_trip_false`).
7. `parse_authorization_basic` lets `UnicodeDecodeError` escape (`C37_errors_false`).
8. `read_line` has no limit of its own (C29).
9. The default `select_subprotocol` depends on the iteration order of a set when priorities are equal
   (`C45_deterministic_false`).
10. `accept()` may raise `UnicodeEncodeError` or answer 500 for header values with lone surrogates (C40, C41 `_false`).
11. `compressobj(wbits=-8)` is refused by zlib (`C47_agree_false`, `C49_round_trip_false`,
    `C43_agreement_false`: the server is OPEN, the client fails).

Legacy layer:

12. `ping()` raises `KeyError` if the pong arrives while it drains (`C56_false`).
13. Concurrent `recv()` and cancellation clobber `_pop_message_waiter` (`C53_concurrent_false`, `C51_closed_false`); a
    message in hand is lost if `transfer_data` is cancelled while waiting for room (`C51_lost_false`).
14. `send()` of an asynchronous iterable may interleave its first fragment with other messages (`C54_first_false`);
    cancelling it leaves the message unfinished (`C54_cancel_false`).
15. `build_host` doesn't bracket IPvFuture hosts (`C62_future_false`); brackets in the user information bypass the
    check of the host (`C62_userinfo_false`).
16. A redirect from `ws` to `wss` is followed without TLS (`C68_tls_false`).
17. Basic authentication answers 500 for duplicate or badly encoded `Authorization` headers
    (`C60_duplicate_false`, `C60_utf8_false`).
18. A legacy server drops connections without a response or answers 500 for lone surrogates in some
    headers (`C66_status_false`).
19. Connections made after the server waited for handlers aren't waited for by `wait_closed()` (`C63_late_false`); a
    handler cancelled during the opening handshake leaks its connection (`C63_cancel_false`).
20. Not proved, seen while modelling: `close()` on a connection in state CONNECTING raises `AttributeError` (used by
    the server's shutdown, which ignores it); `close()` may raise `ConnectionClosed` when draining fails;
    `connection_open()` raises `AssertionError` (then 500) if the connection was lost during the handshake;
    a ping received in state CLOSING makes `transfer_data` wait for `close_connection`, which waits for it, until
    the timeout; `ping()` with more than 125 bytes stays registered though it was never sent.
21. `parse_uri` doesn't percent-decode the user information (and percent-encodes that of IRIs), so a password with
    `@`, `/` or non-ASCII characters can't be expressed in a URI (`C73_credentials_false`).
22. Seen while modelling `_drain` (C77): `write_frame` handles only `ConnectionError`, while `transfer_data` also handles
    `TimeoutError`. When the connection is lost with another exception, such as the `TimeoutError` of ETIMEDOUT, a
    call to `send` that is suspended in `_drain` raises this exception instead of `ConnectionClosed` (last examples of
    `Props/LegacyDrain`). `_drain` gives the argument `loop` to `asyncio.sleep`, which raises `TypeError` in Python 3.10
    and later; setup.py requires Python 3.6.1 or later.
23. C78 is false. `ws://h/a b` is accepted and the resource name contains a space, so that the request line isn't
    valid (`C78_space_false`); only IRIs are percent-encoded. `ws://good.example[::1]:81/` is accepted and its host is
    `::1` (`C78_junk_false`): `urllib.parse` ignores the text outside the brackets, and also accepts `ws://][::1/`.
24. C79 is false in three ways. `ping_timeout` doesn't cover `ping()` itself: if writing is paused when a keepalive ping
    is sent, `keepalive_ping` waits in `drain` without a timeout, and a connection whose peer disappeared stays open
    forever (`C79_paused_false`) — this is when TCP buffers are full because the peer disappeared. If the pong arrives
    before `ping()` returns, `keepalive_ping` ends with the `KeyError` of C56, and nothing detects that the peer
    disappears later (`C79_keyError_false`). A peer that answers at once is failed with 1011 if the application doesn't
    receive messages for `ping_timeout`, because `transfer_data` doesn't read the pong (`C79_backpressure_false`, with
    the default parameters). Without a timeout, `pings` grows forever (`C79_unbounded_false`).
    Also, `asyncio.sleep(…, loop=…)` raises `TypeError` since Python 3.10; line 1174 logs it, so there's no keepalive at
    all (the model assumes an older Python).
25. C82 is false in these ways. If `close_connection_task` is cancelled before it starts, the `finally` clause doesn't run
    and the transport stays open (`C82_transport_false`), contrary to the comment in lines 1223-1224; if it's cancelled
    after `transport.close()`, it doesn't abort (`C82_aborted_false`). `close_code` changes from 1006 to the code of the
    peer if `transfer_data` reads the close frame after `connection_lost` (`C82_final_false`). `recv()` raises
    `AttributeError` if `connection_lost` isn't called in `close_timeout` after `abort()`, and so does `close()` on a
    connection that isn't open yet (`C82_results_false`). A peer that sends a close frame but doesn't read blocks
    `transfer_data` in `_drain` without a timeout; keepalive doesn't help because `ping()` waits for `close_connection`
    in state CLOSING (`C82_progress_false`). If `close()` is cancelled while it writes and a ping comes,
    `transfer_data` and `close_connection` wait for each other forever, even after the connection is lost
    (`C82_deadlock_false`). In all these cases, another call to `close()` ends (`C82_close_ends`).
26. C83 is false: when a response with status 101 contains a `Transfer-Encoding` header, the legacy client ignores it and is
    connected, while `Response.parse` raises `NotImplementedError` and the sans-I/O client fails (`C83_clients_false`). The
    window of 8 bits of C43 makes all four combinations disagree (`C83_handshake_false`). A `process_request` of a legacy
    server that returns status 101 makes clients believe that they're connected (an example in `Props/Interop`).
27. C85 is false for `dir()`: `lazy_import` computes `dir()` when it's called. `websockets.client` calls it before it defines
    `ClientConnection`, which `dir(websockets.client)` lacks (`C85_dir_false`); likewise for `websockets.server`.
28. C86 is false: lines that are waiting in `inputs` when the user presses Ctrl-D (always, if the standard input is a
    file) aren't sent, except one (`C86_sent_false`). If the user types a line when the connection was just closed, `send`
    raises `ConnectionClosed`, and messages that were received before aren't displayed (`C86_shown_false`).
29. C87 is false: the docstring of `handler` says that it "guarantees that the TCP connection is closed before exiting". It isn't
    when the handler of the application raises an exception (`fail_connection` isn't awaited), nor when `handler` is cancelled
    (`C87_closed_false`). A `handler` that's cancelled before it starts stays registered: `WebSocketServer.close` waits for a
    task that ended, which is harmless, but `websockets` lists the connection forever (`C87_registered_false`).
30. C88 is false: when `connect` is cancelled in the opening handshake (for example by `asyncio.wait_for`;
    in this version there's no `open_timeout`), nothing closes the TCP connection (`C88_cancel_false`).
31. C89 is false: `print_during_input` inserts a single line, so a message that contains a newline, or that is longer than a
    line of the terminal, overwrites the line that the user is typing (`C89_multiline_false`). Escape sequences in messages
    aren't removed: a peer can erase the transcript or forge messages (`C89_escape_false`). A text message that starts with
    `(binary) ` is displayed like a binary message (`C89_binary_false`).
32. C90 excludes `legacy_recv=True`: then, `recv` returns `None` when the connection is closed, and `async for` gets `None`
    forever (`C90_legacy_recv`). The changelog, the only documentation of
    `legacy_recv`, doesn't mention it.
33. The documentation of `open` says "When open is False, using the connection raises ConnectionClosed". C92 restricts this to
    `send`, `ping` and `pong`: `recv` still returns messages that were received before; and before the opening handshake ends,
    calls raise `InvalidState`.
34. C93, as documented, has oddities that the theorems state: a redirect from ws to wss leaves `secure` False (cf. 16);
    `close_timeout=None` doesn't disable the timeout but selects the default; an odd `read_limit` sets the
    high-water mark one byte lower.
35. A redirect with several `Location` headers makes `connect()` raise `MultipleValuesError`, which isn't an `InvalidHandshake`
    (`C61_raises`).
36. A request with a path that isn't ASCII is sent as UTF-8 and read as surrogates (`C26_non_ascii_false`);
    `C26_any_path` says what is read for every path.
37. The interactive client: if `close()` raises an exception in `run_client` (`C58_raises`), `exit_from_event_loop_thread` isn't
    called and `main` hangs in `thread.join` (`C97_hang_false`); `main` ends with a traceback if `connect` fails before `try` is
    entered (`C97_start_false`) or if the connection is closed when the user presses Ctrl-D (`C97_traceback_false`); after
    Ctrl-C twice, `run_client` may never be told to stop (`C97_twice_false`).
38. `basic_auth_protocol_factory` ignores the first three pairs of an iterator, although `credentials` may be an `Iterable`
    (`C60_iterator`).
39. `serialize` gives the number of items of a `memoryview` as the length of the payload. A server that sends an array of integers of
    several bytes sends the beginning of the array in a message; the other side reads the rest as frames (`C98_injection_false`),
    which is dangerous if the content of the array is chosen by someone else. A client does the same with `speedups.c`, except that
    the rest is masked. With `utils.py`, it sends one byte per item (`C98_python_false`) or raises an exception
    (`C98_raises_false`). Servers can't send slices with a step.
40. Without SSE2, speedups.c reads 64-bit integers at the address of the data, which it assumes to be aligned on 8 bytes (line 152). This
    isn't true for slices of `memoryview` objects, nor for `bytearray` objects whose first bytes were deleted
    (`C99_aligned_false`): the C standard doesn't define the result, and some processors raise a signal.
41. The opening handshake of the legacy server has no timeout, so a client that connects without sending a request prevents the server
    from shutting down: after `close()`, `wait_closed()` never returns (`C100_silent_false`, `C100_waits`). `Serve.__aexit__` hangs too.
42. Constructors of exceptions pass a message to `BaseException.__init__`, but `BaseException.__reduce__` calls the class with this message.
    So copying or unpickling `ConnectionClosed` and its subclasses, `InvalidHeaderFormat`, `InvalidParameterValue` or `AbortHandshake`
    raises `TypeError` (`C101_raises_false`), and the copy of an `InvalidHeader`, `InvalidHeaderValue`, `InvalidOrigin`, `InvalidUpgrade`,
    `InvalidStatusCode`, `DuplicateParameter`, `InvalidParameterName` or `InvalidURI` displays another message (`C101_message_false`).
43. A `Serve` object that is used in two `async with` statements has one `WebSocketServer`, whose `close()` does nothing the second time.
    So the second statement ends at once, asyncio goes on listening (`C103_reuse_false`) and connections stay open (`C103_reuse_open_false`).
44. `send()` writes a frame before it waits for the buffer to drain. So an application that cancels `send()`, for example with
    `asyncio.wait_for`, and tries again, with one call at a time, fills the buffer without any bound although writing is paused
    (`C105_cancel_false`).
45. The documentation of `local_address` and `remote_address` says that they're `None` when the connection isn't open. They're known
    during the opening handshake (`C106_connecting_false`), and after the connection is closed (`C106_closed_false`), except with TLS
    (`C106_tls`), where they may even be `None` while `open` is true (`C106_open_false`).
46. The message of `AbortHandshake` contains "*n* headers", where *n* is the number of names of headers: two headers `Set-Cookie` are
    displayed as "1 headers" (`C107_count_false`).

## Several models of the same code

Parts of legacy/protocol.py are modelled more than once, with different abstractions. These models are related by proofs:
`LegacyLife` (tasks, cancellation) is simulated by `LegacyConn` (frames, calls): `C82_conn`; `LegacyKeepalive` (time, pings) is
simulated by `LegacyConn`: `C79_conn`; `LegacyHandler` is simulated by `LegacyLife`: `C87_refines`, and by `LegacyRegistry`
(connections of a server), unless tasks of the library are cancelled: `C63_handler`; `LegacySystem` (a server and any number of `LegacyHandler`) is simulated by `LegacyRegistry`, under the same condition: `C102_describes`, and each of its connections by `LegacyHandler`: `C102_connections`; `LegacyServe` contains `LegacySystem`: `C103_system`; `LegacyTimed` contains `LegacyLife`: `C104_life`; `LegacyBuffer` contains `LegacyDrain`; `LegacyAddress` contains `LegacyLife`; `LegacyTransfer` contains `LegacyQueue`, `LegacyStream` and `LegacyRead`; `LegacyIter` contains `LegacyQueue`.

## What is not modelled

* Logging, warnings (except C85), typing overloads, `__repr__`s.
* Parsing the command line and `win_enable_vt100` in `__main__.py`, `asyncio` transports and servers (`asyncio.StreamReader` is
  modelled, without `set_exception`), `ssl`, `zlib` (contract only), DNS.
* Time, except in `Model/LegacyClose` (C58), `Model/LegacyKeepalive` (C79) and `Model/LegacyTimed` (C104), where code takes no time.
* Python 3.11's `urllib.parse` and `ipaddress` are modelled as far as `parse_uri` and `build_host` use them
  (`Model/Uri`); `str.lower`, NFKC and IDNA beyond ASCII are parameters.
