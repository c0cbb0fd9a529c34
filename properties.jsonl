{"id": "C01", "title": "Frame serialization round-trips", "statement": "Serializing any valid frame and parsing the resulting bytes, possibly followed by further bytes, yields exactly the same frame, consumes exactly the serialized bytes and leaves the following bytes untouched.", "quantifier": "every frame that passes check() with a payload shorter than 2**64 bytes, both masking directions, every masking key, every suffix of further input, every size limit not below the payload length", "why_tests_cant": "payloads, masking keys and trailing input are unbounded; tests only sample a few lengths around 125/126/65535/65536", "anchors": ["src/websockets/frames.py:Frame.parse", "src/websockets/frames.py:Frame.serialize", "src/websockets/utils.py:apply_mask"]}
{"id": "C02", "title": "Serialized frames are RFC 6455 wire frames with minimal length encoding", "statement": "The bytes produced for a frame are exactly one RFC 6455 section 5.2 frame: FIN/RSV/opcode nibble, MASK bit, the shortest of the three length encodings, the masking key when masked, and the payload XORed octet i with key octet i mod 4.", "quantifier": "every valid frame, every masking key, both sides", "why_tests_cant": "a layout specification quantifies over all payload lengths and contents", "anchors": ["src/websockets/frames.py:Frame.serialize"]}
{"id": "C03", "title": "The frame parser accepts exactly the valid wire frames", "statement": "Given any byte string, the frame parser returns frame f after consuming prefix p if and only if p is an RFC 6455 wire encoding of f with the expected masking, a payload within the limit and valid control-frame shape; otherwise it raises a protocol/size error or waits for more bytes; it never returns anything else.", "quantifier": "every byte string, both masking expectations, every size limit", "why_tests_cant": "the input space is all byte strings", "anchors": ["src/websockets/frames.py:Frame.parse", "src/websockets/frames.py:Frame.check"]}
{"id": "C04", "title": "The payload size limit is enforced from the frame header alone", "statement": "A frame whose announced length exceeds the limit is rejected as soon as its length field has been received, without waiting for or buffering any payload byte.", "quantifier": "every frame header announcing an excessive length, every limit, every continuation of the stream", "why_tests_cant": "announced lengths go up to 2**64-1, which no test can materialise", "anchors": ["src/websockets/frames.py:Frame.parse", "src/websockets/connection.py:Connection.parse"]}
{"id": "C05", "title": "Masking is an involution and the C and Python implementations agree", "statement": "Applying the same 4-byte mask twice restores the data, length is preserved, and the C implementation (16-byte SSE2 blocks or 8-byte blocks plus a byte-wise remainder) computes the same result as the pure-Python one.", "quantifier": "every data length and content, every 4-byte mask, both C code paths", "why_tests_cant": "block/remainder boundaries and contents range over all lengths; equality of two implementations on all inputs is not testable", "anchors": ["src/websockets/utils.py:apply_mask", "src/websockets/speedups.c:apply_mask"]}
{"id": "C06", "title": "Close payloads round-trip and only permitted close codes reach the wire", "statement": "Parsing a serialized close payload returns the code and reason; serialization succeeds exactly for codes 1000-1003, 1007-1014 and 3000-4999 with an encodable reason; reserved codes (1004, 1005, 1006, 1015) and all others are rejected in both directions; an empty payload parses as 1005 and a one-byte payload is a protocol error.", "quantifier": "every integer code, every reason string, every payload byte string", "why_tests_cant": "codes and reasons are unbounded", "anchors": ["src/websockets/frames.py:parse_close", "src/websockets/frames.py:serialize_close", "src/websockets/frames.py:check_close"]}
{"id": "C07", "title": "Text decoding accepts exactly well-formed UTF-8", "statement": "A byte string decodes to text s if and only if it is the UTF-8 encoding of s; overlong forms, surrogates, truncated and out-of-range sequences are rejected, so every text has exactly one accepted encoding.", "quantifier": "every byte string and every text", "why_tests_cant": "all byte strings", "anchors": ["src/websockets/frames.py:prepare_data", "src/websockets/frames.py:parse_close", "src/websockets/legacy/protocol.py:WebSocketCommonProtocol.read_message"]}
{"id": "C08", "title": "Fragmentation never changes decoded text", "statement": "Decoding a fragmented text message incrementally yields the same text as decoding the concatenated payloads, and fails exactly when the concatenation is not valid UTF-8, wherever the fragment boundaries fall (including inside a character).", "quantifier": "every sequence of fragment payloads, including empty fragments", "why_tests_cant": "all ways of splitting all byte strings", "anchors": ["src/websockets/legacy/protocol.py:WebSocketCommonProtocol.read_message"]}
{"id": "C09", "title": "Behaviour does not depend on how the network splits the data", "statement": "Feeding a byte stream to a connection in any sequence of chunks leaves it in the same state, with the same events, the same bytes to send and the same negotiated parameters as feeding it in one piece.", "quantifier": "every connection state (client, server, handshake or open), every byte stream, every division into chunks, every extension", "why_tests_cant": "number of splits is exponential in the stream length and streams are unbounded", "anchors": ["src/websockets/connection.py:Connection.receive_data", "src/websockets/connection.py:Connection.step_parser", "src/websockets/streams.py:StreamReader", "src/websockets/http11.py:Request.parse", "src/websockets/http11.py:Response.parse"]}
{"id": "C10", "title": "The stream reader neither loses, duplicates nor reorders bytes", "statement": "Whatever sequence of reads is performed, the bytes returned followed by the bytes still buffered are exactly the bytes fed, in order; a line read returns the shortest prefix ending in LF; an exact read returns exactly n bytes; reading to EOF returns everything.", "quantifier": "every parser built from the read primitives and every sequence of feeds", "why_tests_cant": "all histories of feeds and reads", "anchors": ["src/websockets/streams.py:StreamReader.read_line", "src/websockets/streams.py:StreamReader.read_exact", "src/websockets/streams.py:StreamReader.read_to_eof", "src/websockets/streams.py:StreamReader.at_eof"]}
{"id": "C11", "title": "At most one close frame is sent and it is the last frame", "statement": "In the bytes a connection asks to send, at most one close frame occurs and no frame of any kind follows it.", "quantifier": "every history of API calls with arbitrary arguments and arbitrary received bytes", "why_tests_cant": "all interleavings of sends, receives, errors and EOF", "anchors": ["src/websockets/connection.py:Connection.send_close", "src/websockets/connection.py:Connection.fail_connection", "src/websockets/connection.py:Connection.parse", "src/websockets/connection.py:Connection.send_frame"]}
{"id": "C12", "title": "End of stream is signalled at most once and nothing follows it", "statement": "The end-of-stream marker is put in the outgoing data at most once, and no data is put after it.", "quantifier": "every history of API calls", "why_tests_cant": "all histories", "anchors": ["src/websockets/connection.py:Connection.send_eof", "src/websockets/connection.py:Connection.fail_connection", "src/websockets/connection.py:Connection.receive_eof"]}
{"id": "C13", "title": "Connection state only moves forward", "statement": "The state goes CONNECTING -> OPEN -> CLOSING and never backwards; once CLOSING, every attempt to send a frame is refused and writes nothing.", "quantifier": "every history of API calls after the handshake", "why_tests_cant": "all histories", "anchors": ["src/websockets/connection.py:State", "src/websockets/connection.py:Connection.set_state", "src/websockets/connection.py:Connection.send_frame"]}
{"id": "C14", "title": "Outgoing data frames are always correctly fragmented", "statement": "The data frames in the outgoing stream form a sequence of messages, each one text/binary frame followed by continuation frames with FIN only on the last; API calls that would break this are refused without effect.", "quantifier": "every history of send calls, successful or refused, interleaved with receives", "why_tests_cant": "all histories of calls", "anchors": ["src/websockets/connection.py:Connection.send_continuation", "src/websockets/connection.py:Connection.send_text", "src/websockets/connection.py:Connection.send_binary", "src/websockets/connection.py:Connection.send_close"]}
{"id": "C15", "title": "Delivered events are correctly fragmented and no data follows a close", "statement": "The data frames delivered as events form correctly fragmented messages, and no data frame is delivered after a close frame, whatever the peer sends.", "quantifier": "every byte stream received in every chunking, mixed with arbitrary local sends", "why_tests_cant": "adversarial peers: all byte strings", "anchors": ["src/websockets/connection.py:Connection.parse"]}
{"id": "C16", "title": "Delivered messages never exceed max_size", "statement": "The total payload of the frames delivered for any message is at most max_size.", "quantifier": "every byte stream, every max_size", "why_tests_cant": "adversarial streams of fragments are unbounded", "anchors": ["src/websockets/connection.py:Connection.parse", "src/websockets/frames.py:Frame.parse"]}
{"id": "C17", "title": "A conforming peer is never failed", "statement": "If the peer sends only valid frames, correctly fragmented messages within max_size and nothing after its close frame, then every frame is delivered as an event, in order, and no error is raised.", "quantifier": "every conforming frame sequence, every max_size, every local state", "why_tests_cant": "all conforming histories", "anchors": ["src/websockets/connection.py:Connection.parse"]}
{"id": "C18", "title": "Every ping is answered by exactly one identical pong, in order", "statement": "While the connection is open and no close frame has been received, each received ping causes exactly one pong with the same payload to be sent, in the order of the pings, and nothing else causes a pong.", "quantifier": "every sequence of received frames", "why_tests_cant": "all histories", "anchors": ["src/websockets/connection.py:Connection.parse"]}
{"id": "C19", "title": "Closing handshake echoes the close frame", "statement": "On receiving a close frame while open, the connection sends back a close frame with the identical payload, moves to CLOSING, a server also ends the stream, and close_code/close_reason are the ones received (1005 and empty for an empty payload).", "quantifier": "every valid close payload, both sides", "why_tests_cant": "all payloads and states", "anchors": ["src/websockets/connection.py:Connection.parse", "src/websockets/frames.py:parse_close"]}
{"id": "C20", "title": "Each kind of violation fails the connection with the right close code", "statement": "Whatever bytes arrive, an error while receiving ends the stream, and in the OPEN state sends exactly one close frame whose code is 1002 for protocol errors, 1007 for undecodable text, 1009 for oversized payloads, 1011 for unexpected errors and none for a dropped stream; building that close frame never itself fails.", "quantifier": "every byte stream, every state, every size limit with at most 40 digits", "why_tests_cant": "error messages embed attacker-controlled lengths; all inputs", "anchors": ["src/websockets/connection.py:Connection.step_parser", "src/websockets/connection.py:Connection.fail_connection"]}
{"id": "C21", "title": "A failed connection is inert", "statement": "After an error while receiving, further received data or EOF produces no event and no outgoing data and reports an error.", "quantifier": "every failed connection state, every later input", "why_tests_cant": "all histories", "anchors": ["src/websockets/connection.py:Connection.step_parser", "src/websockets/streams.py:StreamReader.feed_data"]}
{"id": "C22", "title": "Receiving always terminates and makes progress", "statement": "Processing any received data terminates, and afterwards the connection has consumed every complete frame: it is waiting only for bytes that have not arrived.", "quantifier": "every connection state and input", "why_tests_cant": "termination on all inputs is not testable", "anchors": ["src/websockets/connection.py:Connection.parse", "src/websockets/connection.py:Connection.step_parser"]}
{"id": "C23", "title": "End-to-end delivery between two connections", "statement": "The frames one side sends are exactly the frames the other side delivers, in the same order with the same payload, for any division of the bytes in transit.", "quantifier": "every sequence of frames sent, both directions, every masking key, every chunking", "why_tests_cant": "all histories on both ends", "anchors": ["src/websockets/connection.py:Connection.send_frame", "src/websockets/connection.py:Connection.receive_data"]}
{"id": "C24", "title": "Clients always mask and servers never mask; mis-masked input is rejected", "statement": "Every frame sent by a client is masked with a key drawn freshly for that frame, no frame sent by a server is masked, and a received frame with the wrong MASK bit is a protocol error.", "quantifier": "every history, every frame", "why_tests_cant": "all histories", "anchors": ["src/websockets/connection.py:Connection.send_frame", "src/websockets/frames.py:Frame.serialize", "src/websockets/frames.py:Frame.parse"]}
{"id": "C25", "title": "A ping arriving during our closing handshake is harmless", "statement": "After this side has sent a close frame, pings sent by the peer before its own close frame do not fail the connection.", "quantifier": "every history in which the close was initiated locally", "why_tests_cant": "requires a particular crossing of messages in flight; all histories", "anchors": ["src/websockets/connection.py:Connection.parse", "src/websockets/legacy/protocol.py:WebSocketCommonProtocol.read_data_frame"]}
{"id": "C26", "title": "HTTP requests round-trip", "statement": "Parsing a serialized request returns the same path and the same header list in the same order, leaving following bytes untouched.", "quantifier": "every path without spaces or control characters and every well-formed header list within the limits", "why_tests_cant": "all header lists and values", "anchors": ["src/websockets/http11.py:Request.parse", "src/websockets/http11.py:Request.serialize", "src/websockets/http11.py:parse_headers"]}
{"id": "C27", "title": "HTTP responses round-trip", "statement": "Parsing a serialized response returns the same status code, reason, headers and body.", "quantifier": "every status code 100-999, reason, header list and body", "why_tests_cant": "all responses", "anchors": ["src/websockets/http11.py:Response.parse", "src/websockets/http11.py:Response.serialize"]}
{"id": "C28", "title": "HTTP parsing limits", "statement": "A parsed request or response has at most 256 headers, and no line longer than 4110 bytes is ever accepted, whatever the peer sends.", "quantifier": "every byte stream", "why_tests_cant": "adversarial input", "anchors": ["src/websockets/http11.py:parse_headers", "src/websockets/http11.py:parse_line"]}
{"id": "C29", "title": "The number of buffered bytes is bounded during the handshake", "statement": "While waiting for a complete header line, an endpoint that has received more than the line limit refuses the connection instead of continuing to buffer.", "quantifier": "every byte stream", "why_tests_cant": "needs unbounded input", "anchors": ["src/websockets/http11.py:parse_line", "src/websockets/streams.py:StreamReader.read_line"]}
{"id": "C30", "title": "Parsed header fields contain no control characters", "statement": "Names of parsed headers are non-empty RFC 7230 tokens and values contain no CR, LF or other control character except tab, and have no leading or trailing blanks, so they cannot be used to smuggle header lines.", "quantifier": "every byte stream", "why_tests_cant": "adversarial input", "anchors": ["src/websockets/http11.py:parse_headers"]}
{"id": "C31", "title": "Headers behave as a case-insensitive ordered multimap", "statement": "After any sequence of operations, lookups are case-insensitive, get_all returns the values added for a name since it was last deleted in insertion order, iteration over raw items is the list of pairs in insertion order, single-value lookup fails exactly when there is no value or several.", "quantifier": "every sequence of set/delete/clear/get operations with arbitrary names and values", "why_tests_cant": "all operation histories", "anchors": ["src/websockets/datastructures.py:Headers"]}
{"id": "C32", "title": "Copies of Headers are independent", "statement": "Changing a copy of a Headers object never changes the original, and vice versa.", "quantifier": "every Headers object, every operation on the copy", "why_tests_cant": "aliasing depends on history", "anchors": ["src/websockets/datastructures.py:Headers.copy", "src/websockets/datastructures.py:Headers.get_all"]}
{"id": "C33", "title": "Header list parsing follows the RFC 7230 list grammar", "statement": "Comma-separated token lists (Connection, Upgrade, Sec-WebSocket-Protocol) parse to the list of their elements, tolerating empty elements and optional whitespace, reject everything else, always terminate and never return an empty list.", "quantifier": "every header value", "why_tests_cant": "all strings", "anchors": ["src/websockets/headers.py:parse_list", "src/websockets/headers.py:parse_connection", "src/websockets/headers.py:parse_upgrade", "src/websockets/headers.py:parse_subprotocol"]}
{"id": "C34", "title": "Extension and subprotocol headers round-trip", "statement": "Parsing the header built from any list of extension offers (names, parameters with optional token values) or subprotocols returns that same list.", "quantifier": "every non-empty list of offers with token names and values", "why_tests_cant": "all lists", "anchors": ["src/websockets/headers.py:parse_extension", "src/websockets/headers.py:build_extension", "src/websockets/headers.py:parse_subprotocol", "src/websockets/headers.py:build_subprotocol"]}
{"id": "C35", "title": "Quoted strings round-trip", "statement": "Parsing the quoted form of a string returns the string.", "quantifier": "every string of characters allowed in a quoted-string", "why_tests_cant": "all strings", "anchors": ["src/websockets/headers.py:build_quoted_string", "src/websockets/headers.py:parse_quoted_string"]}
{"id": "C36", "title": "Basic credentials round-trip", "statement": "Parsing the Authorization header built for a user name without colon and any password returns the same user name and password.", "quantifier": "every encodable user name without a colon and every encodable password", "why_tests_cant": "all strings", "anchors": ["src/websockets/headers.py:build_authorization_basic", "src/websockets/headers.py:parse_authorization_basic"]}
{"id": "C37", "title": "Authorization parsing only raises documented errors", "statement": "Parsing any Authorization header either returns credentials or raises one of the documented invalid-header errors.", "quantifier": "every header value", "why_tests_cant": "adversarial input", "anchors": ["src/websockets/headers.py:parse_authorization_basic", "src/websockets/legacy/auth.py:BasicAuthWebSocketServerProtocol.process_request"]}
{"id": "C38", "title": "Base64 is decoded and encoded correctly", "statement": "Decoding the base64 encoding of any byte string returns that byte string, and handshake keys are always valid 16-byte keys.", "quantifier": "every byte string", "why_tests_cant": "all byte strings", "anchors": ["src/websockets/utils.py:generate_key", "src/websockets/utils.py:accept_key", "src/websockets/headers.py:build_authorization_basic"]}
{"id": "C39", "title": "A server upgrades only valid handshakes", "statement": "A 101 response is produced only if the request has a Connection: upgrade token, exactly one Upgrade: websocket, exactly one 16-byte base64 key and exactly one version header equal to 13, and an acceptable origin; its accept value is base64(SHA-1(key + GUID)).", "quantifier": "every request", "why_tests_cant": "all header combinations", "anchors": ["src/websockets/server.py:ServerConnection.accept", "src/websockets/server.py:ServerConnection.process_request"]}
{"id": "C40", "title": "A server rejects invalid handshakes with the right status", "statement": "If the request is not a valid handshake, accept() returns a 4xx/5xx response: 426 with an Upgrade header for bad upgrades, 403 for a bad origin, 400 for other invalid headers, 500 only for internal errors.", "quantifier": "every request", "why_tests_cant": "all header combinations", "anchors": ["src/websockets/server.py:ServerConnection.accept", "src/websockets/server.py:ServerConnection.reject"]}
{"id": "C41", "title": "accept() always returns a response", "statement": "For every request that the server parsed, accept() returns a response instead of raising.", "quantifier": "every request", "why_tests_cant": "adversarial header bytes", "anchors": ["src/websockets/server.py:ServerConnection.accept", "src/websockets/server.py:ServerConnection.reject"]}
{"id": "C42", "title": "A client completes only valid handshakes", "statement": "A client reaches OPEN only if the response has status 101, a Connection: upgrade token, exactly one Upgrade: websocket, exactly one Sec-WebSocket-Accept matching its own key, only extensions it offered and at most one subprotocol, which it offered.", "quantifier": "every response byte stream", "why_tests_cant": "adversarial servers", "anchors": ["src/websockets/client.py:ClientConnection.process_response", "src/websockets/client.py:ClientConnection.parse"]}
{"id": "C43", "title": "Client and server handshakes interoperate", "statement": "For every client and server configuration, either the server rejects, or the client accepts the server's response, both sides are OPEN and agree on the subprotocol and the list of extensions.", "quantifier": "every pair of configurations", "why_tests_cant": "configuration space is unbounded", "anchors": ["src/websockets/client.py:ClientConnection.connect", "src/websockets/server.py:ServerConnection.accept", "src/websockets/client.py:ClientConnection.process_response"]}
{"id": "C44", "title": "Subprotocol selection is sound and optimal", "statement": "The subprotocol selected by the server, if any, is offered by the client and supported by the server and no other common subprotocol has a smaller sum of positions; none is selected exactly when there is no common one.", "quantifier": "every pair of lists", "why_tests_cant": "all lists", "anchors": ["src/websockets/server.py:ServerConnection.select_subprotocol", "src/websockets/server.py:ServerConnection.process_subprotocol"]}
{"id": "C45", "title": "Subprotocol selection is deterministic", "statement": "The same offer and the same configuration always select the same subprotocol.", "quantifier": "every pair of lists and every iteration order of the intermediate set", "why_tests_cant": "set order depends on per-process hash randomisation", "anchors": ["src/websockets/server.py:ServerConnection.select_subprotocol"]}
{"id": "C46", "title": "Extension negotiation only enables what both sides configured", "statement": "The server enables a sublist of the client's offers, in the order of the offers, each accepted by the first matching configured factory; the response header lists exactly the enabled ones; the client rejects any extension it did not offer.", "quantifier": "every offer, every configuration", "why_tests_cant": "all lists", "anchors": ["src/websockets/server.py:ServerConnection.process_extensions", "src/websockets/client.py:ClientConnection.process_extensions"]}
{"id": "C47", "title": "permessage-deflate negotiation agrees on both ends", "statement": "Whenever a server factory accepts a client factory's offer, the client factory accepts the server's answer and both ends end up with mirrored parameters (no_context_takeover flags and window sizes), within what each side asked for.", "quantifier": "every client configuration and every server configuration", "why_tests_cant": "all combinations of parameters, end to end through header text", "anchors": ["src/websockets/extensions/permessage_deflate.py:ClientPerMessageDeflateFactory.process_response_params", "src/websockets/extensions/permessage_deflate.py:ServerPerMessageDeflateFactory.process_request_params", "src/websockets/extensions/permessage_deflate.py:_extract_parameters", "src/websockets/extensions/permessage_deflate.py:_build_parameters"]}
{"id": "C48", "title": "permessage-deflate rejects invalid parameters", "statement": "Unknown, duplicated or out-of-range parameters are refused in both directions.", "quantifier": "every parameter list", "why_tests_cant": "all parameter lists", "anchors": ["src/websockets/extensions/permessage_deflate.py:_extract_parameters"]}
{"id": "C49", "title": "Compressed messages round-trip", "statement": "With matching negotiated parameters, every sequence of messages, fragmented in any way and interleaved with control frames, decodes to the original frames.", "quantifier": "every sequence of frames, every parameter combination, every codec satisfying the zlib contract", "why_tests_cant": "all histories of a stateful codec", "anchors": ["src/websockets/extensions/permessage_deflate.py:PerMessageDeflate.encode", "src/websockets/extensions/permessage_deflate.py:PerMessageDeflate.decode"]}
{"id": "C50", "title": "Decompression respects the size limit", "statement": "Decoding a compressed frame never yields more than the allowed number of bytes.", "quantifier": "every compressed payload, every limit", "why_tests_cant": "adversarial (zip bomb) input", "anchors": ["src/websockets/extensions/permessage_deflate.py:PerMessageDeflate.decode"]}
{"id": "C51", "title": "No message is lost, duplicated or reordered by recv()", "statement": "Messages returned by recv() are the messages received from the network, in order, each at most once; cancelling recv() loses nothing; messages received before the close are still returned.", "quantifier": "every schedule of message arrivals, recv calls, cancellations and connection loss", "why_tests_cant": "all task interleavings", "anchors": ["src/websockets/legacy/protocol.py:WebSocketCommonProtocol.recv", "src/websockets/legacy/protocol.py:WebSocketCommonProtocol.transfer_data"]}
{"id": "C52", "title": "The receive queue is bounded and backpressure is applied", "statement": "At most max_queue messages are queued (plus one in hand) and the reader does not read further while the queue is full.", "quantifier": "every schedule, every max_queue", "why_tests_cant": "all interleavings", "anchors": ["src/websockets/legacy/protocol.py:WebSocketCommonProtocol.transfer_data", "src/websockets/legacy/protocol.py:WebSocketCommonProtocol.recv"]}
{"id": "C53", "title": "Concurrent recv() calls are refused without harm", "statement": "A recv() started while another one is waiting raises RuntimeError and does not affect the one that is waiting.", "quantifier": "every schedule of concurrent recv calls and cancellations", "why_tests_cant": "all interleavings", "anchors": ["src/websockets/legacy/protocol.py:WebSocketCommonProtocol.recv"]}
{"id": "C54", "title": "Concurrent send() calls never interleave fragments", "statement": "The data frames written by concurrent send() calls form correctly fragmented messages, each message contiguous.", "quantifier": "every schedule of concurrent sends of plain, iterable and async-iterable messages", "why_tests_cant": "all interleavings", "anchors": ["src/websockets/legacy/protocol.py:WebSocketCommonProtocol.send"]}
{"id": "C55", "title": "A pong acknowledges the matching ping and all earlier ones", "statement": "Receiving a pong resolves the matching pending ping and every ping sent before it, and no later one; unsolicited pongs change nothing; when the connection ends all pending pings fail.", "quantifier": "every schedule of pings and pongs", "why_tests_cant": "all histories", "anchors": ["src/websockets/legacy/protocol.py:WebSocketCommonProtocol.ping", "src/websockets/legacy/protocol.py:WebSocketCommonProtocol.read_data_frame", "src/websockets/legacy/protocol.py:WebSocketCommonProtocol.abort_pings"]}
{"id": "C56", "title": "ping() never fails because its pong arrives early", "statement": "If the pong arrives while ping() is still flushing, ping() still returns the (resolved) waiter.", "quantifier": "every schedule", "why_tests_cant": "requires a specific interleaving", "anchors": ["src/websockets/legacy/protocol.py:WebSocketCommonProtocol.ping"]}
{"id": "C57", "title": "The legacy protocol writes at most one close frame and nothing after it", "statement": "Under every interleaving of close(), received close frames, failures and sends, at most one close frame is written and no frame follows it.", "quantifier": "every schedule of tasks", "why_tests_cant": "all interleavings", "anchors": ["src/websockets/legacy/protocol.py:WebSocketCommonProtocol.write_frame", "src/websockets/legacy/protocol.py:WebSocketCommonProtocol.write_close_frame", "src/websockets/legacy/protocol.py:WebSocketCommonProtocol.fail_connection"]}
{"id": "C58", "title": "close() completes in bounded time", "statement": "close() returns within 4 (server) or 5 (client) times close_timeout whatever the peer does.", "quantifier": "every behaviour of the peer", "why_tests_cant": "adversarial timing", "anchors": ["src/websockets/legacy/protocol.py:WebSocketCommonProtocol.close", "src/websockets/legacy/protocol.py:WebSocketCommonProtocol.close_connection", "src/websockets/legacy/protocol.py:WebSocketCommonProtocol.wait_for_connection_lost"]}
{"id": "C59", "title": "The exception class reflects the close code", "statement": "The exception raised for a closed connection is the OK variant exactly for codes 1000 and 1001, and carries the recorded code and reason.", "quantifier": "every close code and reason", "why_tests_cant": "all codes", "anchors": ["src/websockets/legacy/protocol.py:WebSocketCommonProtocol.connection_closed_exc", "src/websockets/exceptions.py:ConnectionClosed"]}
{"id": "C60", "title": "Basic authentication grants access only to accepted credentials", "statement": "A request passes basic authentication only if it carries exactly one Authorization header with Basic credentials that the configured check accepts; every other request gets 401 with a challenge.", "quantifier": "every request and every credentials configuration", "why_tests_cant": "all requests", "anchors": ["src/websockets/legacy/auth.py:BasicAuthWebSocketServerProtocol.process_request", "src/websockets/legacy/auth.py:basic_auth_protocol_factory"]}
{"id": "C61", "title": "Redirects never downgrade security and are bounded", "statement": "Following redirects never goes from wss to ws, and at most 10 redirects are followed before giving up.", "quantifier": "every sequence of redirect responses", "why_tests_cant": "adversarial servers", "anchors": ["src/websockets/legacy/client.py:Connect.handle_redirect", "src/websockets/legacy/client.py:Connect.__await_impl__"]}
{"id": "C62", "title": "Host header construction is unambiguous", "statement": "The Host value lets a parser recover host and port: IPv6 literals are bracketed and default ports omitted.", "quantifier": "every host, port, security flag", "why_tests_cant": "all hosts", "anchors": ["src/websockets/http.py:build_host", "src/websockets/uri.py:parse_uri"]}
{"id": "C63", "title": "Server shutdown reaches every connection", "statement": "After close(), every connection registered at that time or registering later is closed (or its handshake refused with 503), and every handler is finished when wait_closed() returns; closing twice is harmless.", "quantifier": "every schedule of connections and close calls", "why_tests_cant": "all interleavings", "anchors": ["src/websockets/legacy/server.py:WebSocketServer.close", "src/websockets/legacy/server.py:WebSocketServerProtocol.handler"]}
{"id": "C64", "title": "URI parsing recovers every component", "statement": "For every well-formed ws or wss URI, parse_uri returns the security flag, host (lower case), port (default 80 or 443), resource name and user information that the URI was built from; the percent-encoding of IRIs loses nothing.", "quantifier": "every URI built from well-formed components", "why_tests_cant": "all URIs", "anchors": ["src/websockets/uri.py:parse_uri"]}
{"id": "C65", "title": "URIs can't inject lines into the handshake", "statement": "For every URI that parse_uri accepts, the resource name starts with a slash and neither it nor the user information contains a tab, a line terminator or a non-ASCII character; the same is true of the host of an ASCII URI.", "quantifier": "every string", "why_tests_cant": "all strings", "anchors": ["src/websockets/uri.py:parse_uri"]}
{"id": "C66", "title": "A legacy server opens connections only for valid handshakes and answers all other requests", "statement": "The legacy server opens a connection only if the server isn't shutting down, process_request returns None and the request is a valid opening handshake for the configuration; then it writes exactly a 101 response with the accept key, the negotiated extensions and subprotocol and the extra headers. Every other request gets exactly one response, whose status is the one that the first defect deserves (400, 403, 426, or 503 when shutting down), and never 500.", "quantifier": "every request and every server configuration", "why_tests_cant": "unbounded headers and configurations", "anchors": ["src/websockets/legacy/server.py:WebSocketServerProtocol.handler", "src/websockets/legacy/server.py:WebSocketServerProtocol.handshake", "src/websockets/legacy/server.py:WebSocketServerProtocol.write_http_response"]}
{"id": "C67", "title": "A legacy client opens a connection exactly on a valid response to its own request", "statement": "await connect() returns a connection exactly if the last server answered 101 with Connection/Upgrade headers, the accept value for the key sent in that very request, only extensions and at most one subprotocol that the client offered; the connection then has the extensions and the subprotocol of the response. Anything else raises an exception.", "quantifier": "every configuration and every behaviour of the servers, including redirects", "why_tests_cant": "adversarial responses", "anchors": ["src/websockets/legacy/client.py:WebSocketClientProtocol.handshake", "src/websockets/legacy/handshake.py:check_response", "src/websockets/legacy/client.py:Connect.__await_impl__"]}
{"id": "C68", "title": "connect() uses TLS for wss URIs and connects to the right place after redirects", "statement": "Unless ssl=None is passed, every connection for a wss URI uses TLS, also after redirects, and TLS is never used for a ws URI; connections are made to the host and port of the current URI, an explicit host, port or sock being used only for the origin of the initial URI.", "quantifier": "every URI, keyword arguments and sequence of redirects", "why_tests_cant": "unbounded redirect sequences and arguments", "anchors": ["src/websockets/legacy/client.py:Connect.__init__", "src/websockets/legacy/client.py:Connect.handle_redirect"]}
{"id": "C69", "title": "End-to-end delivery with permessage-deflate, from the handshake", "statement": "After any handshake between a client and a server of this library, with or without permessage-deflate, the frames that each side delivers are exactly those that the other side sent, decompressed to the original, in the same order; all of them are delivered unless receiving raises an exception. This holds for any zlib that satisfies its documentation and can create the compressors that both sides agreed on.", "quantifier": "every configuration of both sides, every sequence of calls on both sides, every masking key, every chunking of the bytes in both directions", "why_tests_cant": "all histories on both ends, unbounded messages, any division of the bytes in transit", "anchors": ["src/websockets/connection.py:Connection.send_frame", "src/websockets/connection.py:Connection.receive_data", "src/websockets/extensions/permessage_deflate.py:PerMessageDeflate", "src/websockets/client.py:ClientConnection", "src/websockets/server.py:ServerConnection"]}
{"id": "C70", "title": "The legacy implementation reads what the Sans-I/O layer reads", "statement": "On the same bytes, read_request and read_response of the legacy implementation succeed exactly when the parsers of the Sans-I/O layer do, with the same values and the same bytes left; they raise only if these parsers cannot succeed whatever comes next, and wait only if these parsers wait. Frame.read returns the same frame, raises the same exception or waits like Frame.parse.", "quantifier": "every byte stream, every division into chunks, every interleaving of the event loop, with or without end of stream, every read_limit that admits the longest acceptable line (any read_limit for frames)", "why_tests_cant": "two implementations compared on all streams, chunkings and schedules", "anchors": ["src/websockets/legacy/http.py:read_request", "src/websockets/legacy/http.py:read_response", "src/websockets/legacy/framing.py:Frame.read", "src/websockets/http11.py:Request.parse", "src/websockets/frames.py:Frame.parse"]}
{"id": "C71", "title": "Legacy connections buffer a bounded number of bytes and reading never stalls", "statement": "With a maximum message size, the number of bytes in the read buffer of a legacy connection never exceeds the largest of read_limit and max_size, plus one chunk; while a task waits for bytes the transport is not paused and the bytes it needs are not in the buffer; the transport is paused only while more than half of read_limit is buffered.", "quantifier": "every sequence of chunks, every interleaving of the event loop, cancellations, every read_limit and max_size", "why_tests_cant": "unbounded input and all schedules", "anchors": ["src/websockets/legacy/protocol.py:WebSocketCommonProtocol.__init__", "src/websockets/legacy/protocol.py:WebSocketCommonProtocol.data_received", "src/websockets/legacy/http.py:read_line", "src/websockets/legacy/framing.py:Frame.read"]}
{"id": "C72", "title": "The client's request says exactly what the client was configured with", "statement": "connect() builds a request exactly when the credentials of the URI can be sent and the additional headers contain at most one User-Agent; the request line and the header lines are those of the specification in a fixed order, and a server that reads the bytes of the request learns the resource name, host, origin, user name and password, subprotocols, extension offers and key that the client was configured with.", "quantifier": "every client configuration", "why_tests_cant": "all combinations of URIs, credentials, origins, subprotocols, extensions and headers", "anchors": ["src/websockets/client.py:ClientConnection.connect", "src/websockets/legacy/client.py:WebSocketClientProtocol.handshake", "src/websockets/headers.py:build_authorization_basic"]}
{"id": "C73", "title": "The server learns the credentials that the URI stands for", "statement": "For every URI with user information, the user name and the password that the server reads from the request are the percent-decoded user name and password of the URI.", "quantifier": "every well-formed URI with user information", "why_tests_cant": "all URIs", "anchors": ["src/websockets/uri.py:parse_uri", "src/websockets/client.py:ClientConnection.connect"]}
{"id": "C74", "title": "permessage-deflate releases contexts that aren't taken over", "statement": "After any sequence of frames encoded and decoded successfully, the extension holds a compressor exactly if the context is taken over between messages or a message is being sent, and a decompressor exactly if the context is taken over between messages or a compressed message is being received.", "quantifier": "every sequence of encoded and decoded frames, every configuration", "why_tests_cant": "unbounded sequences of messages and fragments", "anchors": ["src/websockets/extensions/permessage_deflate.py:PerMessageDeflate.encode", "src/websockets/extensions/permessage_deflate.py:PerMessageDeflate.decode"]}
{"id": "C75", "title": "The legacy implementation delivers what the peer sends, from bytes to recv()", "statement": "Whatever frames a peer sends, encoded by its extensions, however the bytes are cut, whenever tasks run or are cancelled, and whatever is written in the other direction, calls to recv return the messages that these frames carry, unaltered, in order, without gaps. When everything was received and transfer_data waits for more data, or ended because of a close frame, no message is missing. As long as the peer conforms, transfer_data ends only because of a close frame (if there is no size limit or no extension). When a close frame arrives in the middle of a message, transfer_data ends with ProtocolError rather than normally.", "quantifier": "every sequence of frames, every channel of extensions (in particular permessage-deflate), every chunking, schedule and queue size", "why_tests_cant": "unbounded sequences of frames, chunkings and schedules", "anchors": ["src/websockets/legacy/protocol.py:WebSocketCommonProtocol.transfer_data", "src/websockets/legacy/protocol.py:WebSocketCommonProtocol.read_message", "src/websockets/legacy/protocol.py:WebSocketCommonProtocol.read_data_frame", "src/websockets/legacy/protocol.py:WebSocketCommonProtocol.read_frame", "src/websockets/legacy/framing.py:Frame.read"]}
{"id": "C76", "title": "recv() on one side returns what send() was given on the other side", "statement": "For two connected legacy endpoints, in any execution of concurrent calls to send (strings, bytes, iterators, asynchronous iterators), ping, pong and close on one side, with any extensions that make a channel, any chunking of the bytes and any schedule of the other side: writing raises no exception; calls to recv return, in order and without gaps, the messages given to calls to send; the message of every call that returned is among them once everything was received or the connection was closed; a message whose call returned before another call was made comes first.", "quantifier": "every execution on both sides, every channel of extensions, every chunking", "why_tests_cant": "unbounded interleavings on both sides", "anchors": ["src/websockets/legacy/protocol.py:WebSocketCommonProtocol.send", "src/websockets/legacy/protocol.py:WebSocketCommonProtocol.write_frame", "src/websockets/legacy/protocol.py:WebSocketCommonProtocol.recv", "src/websockets/legacy/protocol.py:WebSocketCommonProtocol.transfer_data", "src/websockets/legacy/framing.py:Frame.write"]}
{"id": "C77", "title": "Flow control of the legacy implementation never deadlocks, never loses a wake-up and applies back-pressure", "statement": "In any interleaving of calls to write_frame, cancellations, pause_writing, resume_writing, connection_lost and the scheduling of tasks: at most one task is in _drain; the assertion in _drain_helper never fails and the lock is never released when it isn't held; when writing isn't paused or the connection is lost, all calls end, after a bounded number of steps; a call made while writing is paused doesn't return until writing resumes or the connection is lost; a call made after the connection was lost doesn't return normally; calls that aren't cancelled end in the order in which they were made; a call that's cancelled, wherever it waits, can run at once and raises CancelledError, and nothing else.", "quantifier": "every number of tasks, every interleaving, including cancellations between the wake-up of a task and its execution", "why_tests_cant": "unbounded number of tasks and interleavings; _drain, pause_writing and resume_writing are excluded from coverage (pragma: no cover)", "anchors": ["src/websockets/legacy/protocol.py:WebSocketCommonProtocol._drain_helper", "src/websockets/legacy/protocol.py:WebSocketCommonProtocol._drain", "src/websockets/legacy/protocol.py:WebSocketCommonProtocol.write_frame", "src/websockets/legacy/protocol.py:WebSocketCommonProtocol.pause_writing", "src/websockets/legacy/protocol.py:WebSocketCommonProtocol.resume_writing", "src/websockets/legacy/protocol.py:WebSocketCommonProtocol.connection_lost"]}
{"id": "C78", "title": "Only well-formed WebSocket URIs are accepted", "statement": "Every string that parse_uri accepts is a WebSocket URI by the grammar of RFC 6455 and RFC 3986: a scheme, user information, a host name or a valid IP literal in brackets, a valid port, and a resource name made of visible characters; the components that parse_uri returns are the components of the string.", "quantifier": "every ASCII string", "why_tests_cant": "all strings, including malformed authorities and addresses", "anchors": ["src/websockets/uri.py:parse_uri"]}
{"id": "C79", "title": "Keepalive detects peers that don't respond in bounded time, and only these", "statement": "While a legacy connection is open, it has read something from the peer in the last ping_interval + ping_timeout; keepalive_ping fails the connection with code 1011 only if a ping hasn't been answered for ping_timeout, and never if the peer answers every ping in time; at most one ping of keepalive_ping is pending; the tasks always get suspended, so that time can pass.", "quantifier": "every ping_interval, ping_timeout and max_queue; every interleaving of keepalive_ping, transfer_data, the application, the transport and the peer; all times", "why_tests_cant": "unbounded time and all interleavings of three tasks, flow control and the network", "anchors": ["src/websockets/legacy/protocol.py:keepalive_ping", "src/websockets/legacy/protocol.py:ping", "src/websockets/legacy/protocol.py:read_data_frame"]}
{"id": "C80", "title": "The closing handshake always ends the connection on both sides", "statement": "When everything that one side wrote has been delivered to the other side, including the end of the stream, and vice versa, if either side sent or received a close frame, failed the connection or received the end of the stream, then both sides have sent the end of the stream and received it: neither side waits for the other forever.", "quantifier": "every pair of client and server, all calls made on both sides in any order, all data, every chunking, with every extension that keeps its contract", "why_tests_cant": "unbounded interleavings of two endpoints; includes crossing close frames, pings crossing close frames, protocol errors and failures on both sides", "anchors": ["src/websockets/connection.py:Connection.receive_data", "src/websockets/connection.py:Connection.receive_eof", "src/websockets/connection.py:Connection.fail_connection", "src/websockets/connection.py:Connection.send_close", "src/websockets/connection.py:Connection.parse"]}
{"id": "C81", "title": "Both sides of a closed connection report the code and reason given to send_close", "statement": "When one side calls send_close(code, reason), the other side doesn't, and everything that each side wrote has been delivered to the other, both sides report this code (1005 if there was none) and this reason as close_code and close_reason.", "quantifier": "every code and reason that send_close accepts, all other calls on both sides before and after, every chunking, with every extension that keeps its contract", "why_tests_cant": "unbounded interleavings of two endpoints and of messages in flight", "anchors": ["src/websockets/connection.py:Connection.send_close", "src/websockets/connection.py:Connection.parse", "src/websockets/connection.py:Connection.close_code", "src/websockets/connection.py:Connection.close_reason"]}
{"id": "C82", "title": "Legacy connections always end, with the right code, and never leak the transport", "statement": "In any interleaving of transfer_data, close_connection, calls of the application, the transport and cancellations: the state only advances and is CLOSED exactly when connection_lost was called; at most one close frame is written and nothing after it; close_code is the code of the close frame that was read, otherwise 1006 once the connection is lost, and it doesn't change once the connection is closed; when close_connection_task ends, the transport was closed, and the connection is lost or was aborted; calls end normally, or with ConnectionClosed with the final code, InvalidState or CancelledError; a connection that started closing ends after a bounded number of steps.", "quantifier": "every number of calls, every interleaving, every cancellation, all inputs of transfer_data", "why_tests_cant": "unbounded number of tasks and interleavings of cancellations, timeouts, the transport and the network", "anchors": ["src/websockets/legacy/protocol.py:WebSocketCommonProtocol.close", "src/websockets/legacy/protocol.py:WebSocketCommonProtocol.close_connection", "src/websockets/legacy/protocol.py:WebSocketCommonProtocol.transfer_data", "src/websockets/legacy/protocol.py:WebSocketCommonProtocol.ensure_open", "src/websockets/legacy/protocol.py:WebSocketCommonProtocol.fail_connection", "src/websockets/legacy/protocol.py:WebSocketCommonProtocol.connection_lost"]}
{"id": "C83", "title": "Legacy and sans-I/O peers complete the opening handshake together", "statement": "With the same configuration, the legacy and the sans-I/O client send the same bytes, the legacy and the sans-I/O server accept the same requests with the same response, extensions and subprotocol, and both clients accept the same responses; so in all four combinations, however the bytes are cut, when the server accepts, the client is connected with the same subprotocol and matching extensions, and bytes that follow the response are left for the frame parser; when the server refuses, no client is ever connected.", "quantifier": "all configurations, requests, responses, cuttings of the bytes and schedules of the legacy tasks", "why_tests_cant": "four combinations of implementations, unbounded configurations and cuttings of the bytes; the unit tests only test one side at a time against fixed bytes", "anchors": ["src/websockets/legacy/server.py:WebSocketServerProtocol.handshake", "src/websockets/legacy/server.py:WebSocketServerProtocol.handler", "src/websockets/legacy/client.py:WebSocketClientProtocol.handshake", "src/websockets/legacy/http.py:read_request", "src/websockets/legacy/http.py:read_response", "src/websockets/server.py:ServerConnection.accept", "src/websockets/client.py:ClientConnection.process_response"]}
{"id": "C84", "title": "Messages pass between legacy and sans-I/O peers", "statement": "In all four combinations of a client and a server of the legacy and of the sans-I/O implementation, with or without permessage-deflate, from the opening handshake: whatever calls both applications make, however the bytes are cut, each application gets the messages that the other application was told to send, in order, unaltered and without gaps; all of them, including those of every call that returned, once everything was received.", "quantifier": "all configurations, executions of both sides, channels of extensions and cuttings of the bytes", "why_tests_cant": "unbounded interleavings on both sides, four combinations of implementations", "anchors": ["src/websockets/connection.py:Connection.send_text", "src/websockets/connection.py:Connection.receive_data", "src/websockets/legacy/protocol.py:WebSocketCommonProtocol.send", "src/websockets/legacy/protocol.py:WebSocketCommonProtocol.recv", "src/websockets/legacy/protocol.py:WebSocketCommonProtocol.transfer_data", "src/websockets/extensions/permessage_deflate.py:PerMessageDeflate.encode"]}
{"id": "C85", "title": "Lazy imports provide exactly the names that they declare", "statement": "A module that calls lazy_import has, besides its variables, exactly the attributes that aliases and deprecated_aliases declare; each is the object that an equivalent from-import statement gives. Accessing a deprecated alias issues one warning, other accesses none. Declaring a name twice is refused. dir() lists all these names, sorted. On Python 3.6, where names are imported eagerly, the attributes are the same. In the modules of websockets, all declared names exist and none is hidden, and every name of websockets.__all__ is available.", "quantifier": "all packages, modules, aliases, deprecated aliases and attribute names", "why_tests_cant": "names are resolved on access; a wrong path or a hidden alias shows only when this very name is used", "anchors": ["src/websockets/imports.py:import_name", "src/websockets/imports.py:lazy_import", "src/websockets/__init__.py", "src/websockets/client.py", "src/websockets/server.py", "src/websockets/http.py"]}
{"id": "C86", "title": "The interactive client displays what it receives and sends what the user types", "statement": "In every interleaving of the tasks of run_client with the user and with the connection: the messages received are displayed in order, without gaps or duplicates, all of them if the connection is closed; the lines typed are sent in order, without gaps or duplicates, all of them unless the connection is closed; no message or line is lost when incoming or outgoing is cancelled; recv is never called concurrently; after Ctrl-C or Ctrl-D, the client stops within one iteration; it never waits while there is something to do.", "quantifier": "all executions: orders of messages, lines, interruptions, losses of connection, task switches and cancellations", "why_tests_cant": "the loop cancels recv() and get() at every iteration; losses depend on the order of callbacks within one iteration of the event loop", "anchors": ["src/websockets/__main__.py:run_client", "src/websockets/__main__.py:main", "src/websockets/legacy/protocol.py:WebSocketCommonProtocol.recv"]}
{"id": "C87", "title": "The handler of a legacy server answers each client once and leaves no connection behind", "statement": "In every execution of WebSocketServerProtocol.handler, composed with the life cycle of the connection: the handler of the application is called at most once, only after a single response with status 101; otherwise at most one response is sent (two if the connection was already lost) and no frame. Every client gets a response unless there is a ConnectionError, an unencodable response or a cancellation. When handler ends, the TCP connection is closed and the connection is unregistered from the server; handler ends in a bounded number of steps even if the peer does not cooperate.", "quantifier": "all executions: orders of data, losses of connection, timeouts, exceptions of the application, cancellations", "why_tests_cant": "each await of handler can be interrupted by an exception, a loss of connection or a cancellation; only a proof covers all combinations with the tasks of the connection", "anchors": ["src/websockets/legacy/server.py:WebSocketServerProtocol.handler", "src/websockets/legacy/server.py:WebSocketServerProtocol.connection_made"]}
{"id": "C88", "title": "async with connect(...) leaves no connection behind", "statement": "In every execution of async with connect(...), composed with the life cycle of the connection: when the opening handshake fails, the TCP connection is closed before the exception is raised and no frame is sent; when the body ends, in any way, the TCP connection is closed or aborted when the statement ends; it ends in a bounded number of steps even if the peer does not cooperate; cancelling connect does not leak the TCP connection.", "quantifier": "all executions: orders of data, losses of connection, timeouts, exceptions of the body, cancellations", "why_tests_cant": "cancellations and losses of connection can happen at every await", "anchors": ["src/websockets/legacy/client.py:Connect.__await_impl__", "src/websockets/legacy/client.py:Connect.__aenter__", "src/websockets/legacy/client.py:Connect.__aexit__"]}
{"id": "C89", "title": "The interactive client displays messages above the line that the user is typing", "statement": "On a VT100 terminal, whatever the sequence of messages and of characters that the user types, print_during_input inserts the message on its own line above the line that is being typed, and leaves this line and the cursor as they were; print_over_input replaces this line. The transcript is the sequence of messages, in order. Text and binary messages can be told apart, and binary messages can be recovered from what is displayed.", "quantifier": "all sizes and contents of the terminal, positions of the cursor, sequences of messages and keys", "why_tests_cant": "escape sequences behave differently on the last line, where the terminal scrolls; tests check the bytes that are written, not what a terminal displays", "anchors": ["src/websockets/__main__.py:print_during_input", "src/websockets/__main__.py:print_over_input", "src/websockets/__main__.py:run_client"]}
{"id": "C90", "title": "Iterating on a legacy connection yields every message, then ends", "statement": "In every execution, unless legacy_recv is set, if no other task calls recv, `async for message in websocket` yields the messages in the order in which they were received, including when loops are left early, cancelled and started again; when it ends because the connection is closed, it yielded every message; it ends without an exception exactly when the close code is 1000 or 1001 and raises ConnectionClosedError otherwise; it ends once the connection is closed and messages are exhausted. If other tasks call recv at the same time, it yields some of the messages, in order.", "quantifier": "all executions: arrivals of messages, wakeups, cancellations, closures", "why_tests_cant": "interleavings of the generator with the task that reads messages are unbounded", "anchors": ["src/websockets/legacy/protocol.py:WebSocketCommonProtocol.__aiter__", "src/websockets/legacy/protocol.py:WebSocketCommonProtocol.recv", "src/websockets/legacy/protocol.py:WebSocketCommonProtocol.connection_closed_exc"]}
{"id": "C91", "title": "ConnectionClosed displays the close code and reason faithfully", "statement": "format_close is injective: closures that differ by code or reason are displayed differently. A code is displayed as unknown exactly when it has no name in RFC 6455 or in the registry of IANA; every code that a connection can have once it is closed has a name, and satisfies the assertion in the constructor of the exception that is raised.", "quantifier": "all integers, all reasons, all executions of a legacy connection", "why_tests_cant": "codes and reasons are unbounded; a reason may look like another part of the display", "anchors": ["src/websockets/exceptions.py:format_close", "src/websockets/exceptions.py:ConnectionClosed", "src/websockets/exceptions.py:ConnectionClosedOK", "src/websockets/exceptions.py:ConnectionClosedError"]}
{"id": "C92", "title": "open and closed of legacy connections say what can be done with the connection", "statement": "In every execution, `open` and `closed` can be read at any time. A call to send writes a frame only if open is True when it begins to write; as long as open is True, no close frame was sent or received, the connection wasn't lost and it has no close code. Once it is False after the opening handshake, it stays False, and calls to send, ping and pong that begin then never succeed. closed is True exactly when wait_closed returns, never at the same time as open, forever, and then the connection has a close code.", "quantifier": "all executions of a legacy connection: calls, frames, losses of the connection, wakeups", "why_tests_cant": "attributes are computed from the state, which several tasks change at any point of any interleaving", "anchors": ["src/websockets/legacy/protocol.py:WebSocketCommonProtocol.open", "src/websockets/legacy/protocol.py:WebSocketCommonProtocol.closed", "src/websockets/legacy/protocol.py:WebSocketCommonProtocol.wait_closed"]}
{"id": "C93", "title": "Arguments of the legacy connect() and serve() reach the connection", "statement": "Each argument of connect() and serve(), including deprecated ones, determines the attribute of connections that it documents, with the documented default, and no other: timeouts, limits, queues, origins (with the deprecated empty string replaced by None), extensions, subprotocols, headers, klass or create_protocol, compression. After redirects, host and port are those of the URI to which the client connects.", "quantifier": "all values of all arguments, all sequences of redirects", "why_tests_cant": "there are too many combinations of present, absent and deprecated arguments; a swapped argument is only visible when both values differ", "anchors": ["src/websockets/legacy/client.py:Connect.__init__", "src/websockets/legacy/server.py:Serve.__init__", "src/websockets/legacy/protocol.py:WebSocketCommonProtocol.__init__", "src/websockets/legacy/client.py:WebSocketClientProtocol.__init__", "src/websockets/legacy/server.py:WebSocketServerProtocol.__init__"]}
{"id": "C94", "title": "A peer can't make a legacy connection hold more than a bounded amount of data", "statement": "With max_size and max_queue set, and extensions (if any) that keep frames within the limit they are given, the bytes that a legacy connection holds for its peer - unparsed bytes, frames of the current message, messages in the queue and the message waiting for room in the queue - never exceed max(read_limit, max_size, 8) + one chunk + (max_queue + 1) * max_size, and recv() never returns a message larger than max_size bytes (in UTF-8 for text).", "quantifier": "every sequence of bytes sent by the peer, cut into any chunks, every interleaving of tasks, calls to recv() and cancellations, every configuration", "why_tests_cant": "the worst case combines all buffers at once and depends on the schedule; inputs are unbounded", "anchors": ["src/websockets/legacy/protocol.py:WebSocketCommonProtocol.transfer_data", "src/websockets/legacy/protocol.py:WebSocketCommonProtocol.read_message", "src/websockets/legacy/protocol.py:WebSocketCommonProtocol.read_frame", "src/websockets/legacy/framing.py:Frame.read"]}
{"id": "C95", "title": "Legacy connections answer every ping received while they're open", "statement": "In every execution, the pong frames that a legacy connection writes on its own are exactly the answers to the pings received while it's open: one final frame per ping, in order, with the same payload; each is written before anything else that transfer_data does, leaves the connection open, and transfer_data reads on once it's sent. A ping received when the connection is closing causes no frame.", "quantifier": "every interleaving of received frames, calls of the application, cancellations, failures and loss of the connection; all payloads up to 125 bytes", "why_tests_cant": "the answers interleave with fragmented messages, drains and closing in unboundedly many ways", "anchors": ["src/websockets/legacy/protocol.py:WebSocketCommonProtocol.read_data_frame", "src/websockets/legacy/protocol.py:WebSocketCommonProtocol.pong", "src/websockets/legacy/protocol.py:WebSocketCommonProtocol.write_frame"]}
{"id": "C96", "title": "A close frame tells why the legacy connection was closed", "statement": "In every execution, every close frame that a legacy connection writes was asked for by close() with this payload, echoes a valid close frame that was received, has the code with which the connection failed (never 1006; 1007 if a close reason isn't UTF-8, 1002 if a close frame isn't valid) or has code 1011 because sending a fragmented message raised an exception; conversely, an open connection that fails with another code than 1006 or receives a valid close frame writes the corresponding close frame.", "quantifier": "every interleaving of received frames, calls of the application, cancellations, failures and loss of the connection", "why_tests_cant": "a wrong code for a rare failure (e.g. an error of the transport while a pong is sent) needs this failure at this point of the execution", "anchors": ["src/websockets/legacy/protocol.py:WebSocketCommonProtocol.fail_connection", "src/websockets/legacy/protocol.py:WebSocketCommonProtocol.write_close_frame", "src/websockets/legacy/protocol.py:WebSocketCommonProtocol.transfer_data", "src/websockets/legacy/protocol.py:WebSocketCommonProtocol.read_data_frame"]}
{"id": "C97", "title": "The process of the interactive client terminates", "statement": "In every interleaving of the main thread, the thread of the event loop, the user and signals: the lines typed are sent in order, and at most one line is discarded by KeyboardInterrupt; the result of stop is set at most once; the event loop is closed exactly when main() returns, after its thread ended; when run_client has returned, the process ends after a bounded number of steps without the user; after Ctrl-C or Ctrl-D the threads wait for nothing but the network; main() doesn't raise KeyboardInterrupt.", "quantifier": "all executions: orders of the steps of both threads, of lines, Ctrl-C, Ctrl-D, signals, received messages and loss of the connection", "why_tests_cant": "races between two threads and signals: a signal that arrives a few instructions earlier or later, or close() failing at the end, changes the outcome", "anchors": ["src/websockets/__main__.py:main", "src/websockets/__main__.py:exit_from_event_loop_thread", "src/websockets/__main__.py:run_client"]}
{"id": "C98", "title": "Any bytes-like object is sent as its bytes", "statement": "For every bytes, bytearray or memoryview object - whatever the format of its items, its strides and its dimensions - sending it as a message, from a client or from a server, with speedups.c or with utils.py, writes the RFC 6455 encoding of one binary message that contains the bytes of the object. If sending it raises an exception, nothing is written, and the exception is BufferError, TypeError or ValueError.", "quantifier": "all bytes-like objects (formats, item sizes, numbers of items, contiguous or not), masking keys, implementations of apply_mask", "why_tests_cant": "tests send memoryviews of bytes; len() counts items, iteration yields items, and writing copies bytes: these differ for other formats, which there are infinitely many of, and a server that sends an array of integers sends frames chosen by its content", "anchors": ["src/websockets/frames.py:Frame.serialize", "src/websockets/frames.py:prepare_data", "src/websockets/utils.py:apply_mask", "src/websockets/speedups.c:_PyBytesLike_AsStringAndSize"]}
{"id": "C99", "title": "The C extension uses memory correctly", "statement": "For all arguments, wherever their buffers are in memory, and whichever calls of the CPython API fail: apply_mask in speedups.c reads and writes only inside the buffers of its arguments and of its result, without overflow, and terminates; it returns NULL exactly when it sets an exception, which is the first that applies; it releases each reference that it owns exactly once, except its result; every byte of the result is initialised and equal to the byte that the Python implementation computes; integers are accessed only at aligned addresses.", "quantifier": "all objects of any type and length below 2**63, all outcomes of API calls, all addresses, three compilation targets", "why_tests_cant": "reading or writing a few bytes outside a buffer, leaking a reference on an error path and unaligned accesses have no visible effect in most runs; failures of memory allocation are hard to provoke", "anchors": ["src/websockets/speedups.c:apply_mask", "src/websockets/speedups.c:_PyBytesLike_AsStringAndSize"]}
{"id": "C100", "title": "Shutting down a legacy server ends", "statement": "After close() is called on a legacy server, provided that the application's connection handlers end and that connections are lost after they are closed, wait_closed() returns after a number of steps bounded by the number of connections, whatever clients do.", "quantifier": "all histories of connections, handshakes, closures and cancellations before close(); all schedules of the tasks of the server, of its connections and of connection handlers after it", "why_tests_cant": "hangs depend on the phase of every connection when close() is called and on the order of tasks; a test that hangs for a client that sends nothing is rarely written", "anchors": ["src/websockets/legacy/server.py:WebSocketServer.close", "src/websockets/legacy/server.py:WebSocketServer._close", "src/websockets/legacy/server.py:WebSocketServer.wait_closed", "src/websockets/legacy/server.py:WebSocketServerProtocol.handler"]}
{"id": "C101", "title": "Copies of exceptions are the same exceptions", "statement": "An exception of a class defined in websockets.exceptions, copied by copy.copy() or sent to another process by pickle, has the same class, displays the same message and has the same attributes. For every code and reason, exactly one of ConnectionClosedOK and ConnectionClosedError can be created.", "quantifier": "all classes in exceptions.py, all arguments of their constructors", "why_tests_cant": "whether a copy is the same depends on every argument; tests check a few messages and never copy exceptions", "anchors": ["src/websockets/exceptions.py:ConnectionClosed.__init__", "src/websockets/exceptions.py:InvalidHeader.__init__", "src/websockets/exceptions.py:InvalidHeaderFormat.__init__", "src/websockets/exceptions.py:InvalidOrigin.__init__", "src/websockets/exceptions.py:InvalidStatusCode.__init__", "src/websockets/exceptions.py:InvalidParameterValue.__init__", "src/websockets/exceptions.py:AbortHandshake.__init__", "src/websockets/exceptions.py:RedirectHandshake.__init__", "src/websockets/exceptions.py:InvalidURI.__init__"]}
{"id": "C102", "title": "A legacy server and the tasks of its connections work together", "statement": "In a legacy server with any number of connections, handlers and tasks that run concurrently: a connection is registered if and only if its handler is in progress; once the server is closed no connection opens; connections that were open are closed when the tasks created by the server ended; when wait_closed() returns, the handlers of connections made before the server waits for handlers have ended and these connections are closed, unless the task of the handler was cancelled; the server never waits for a client that doesn't cooperate in the closing handshake; each connection behaves as if it were alone; once close() was called, provided that connection handlers return and nobody cancels tasks of the library, wait_closed() returns after a bounded number of steps of the library, whatever clients do or don't do.", "quantifier": "all numbers of connections, all interleavings of the server, of handlers, of close(), of transfer_data and close_connection tasks and of actions of clients, all configurations of connections", "why_tests_cant": "tests start a server with one or two connections and close it in a few situations; interleavings of tasks of many connections can't be enumerated", "anchors": ["src/websockets/legacy/server.py:WebSocketServer._close", "src/websockets/legacy/server.py:WebSocketServer.close", "src/websockets/legacy/server.py:WebSocketServer.register", "src/websockets/legacy/server.py:WebSocketServer.unregister", "src/websockets/legacy/server.py:WebSocketServerProtocol.connection_made", "src/websockets/legacy/server.py:WebSocketServerProtocol.handler", "src/websockets/legacy/protocol.py:WebSocketCommonProtocol.close"]}
{"id": "C103", "title": "async with serve(...) starts a server and shuts it down", "statement": "After `async with serve(...)`, however the body of the statement ended, asyncio isn't listening any more and the server is shut down as in C102, unless an exception interrupted __aenter__ or __aexit__. Once the body ended, shutting down goes on even if the task that waits is cancelled; connection handlers returning, the library can always go on until the statement ends.", "quantifier": "all interleavings of tasks that use a Serve object, of the server, of its connections and of cancellations, all numbers of connections", "why_tests_cant": "tests use a Serve object once, in a few situations; interleavings with tasks of connections can't be enumerated", "anchors": ["src/websockets/legacy/server.py:Serve.__aenter__", "src/websockets/legacy/server.py:Serve.__aexit__", "src/websockets/legacy/server.py:Serve.__await_impl__", "src/websockets/legacy/server.py:WebSocketServer.wrap", "src/websockets/legacy/server.py:WebSocketServer.wait_closed"]}
{"id": "C104", "title": "Closing a legacy connection takes a bounded time however tasks interleave", "statement": "If close() is called at any time on a legacy connection, then, whatever the peer, the network and the application do and however tasks interleave (concurrent calls to close(), failures, backpressure, cancellations), it ends within 4 times close_timeout on the server side and 5 times on the client side, plus the time that asyncio takes to lose an aborted connection. The library always goes on until it ends without anyone doing anything. Once transfer_data_task ended or is cancelled, because the connection fails or the peer closes it, close_connection_task ends within 2 times close_timeout on the server side and 3 times on the client side, plus the same delay. Conversely, close() stops waiting for the peer's close frame only once close_timeout elapsed, and, unless close_connection_task is cancelled, the transport is aborted only once close_timeout elapsed as many times as the peer is given to close the connection.", "quantifier": "all interleavings of tasks and of network events, all times at which they happen, all values of close_timeout, all numbers of calls", "why_tests_cant": "tests use a few timeouts in a few orders; the interleavings of tasks with timeouts can't be enumerated", "anchors": ["src/websockets/legacy/protocol.py:WebSocketCommonProtocol.close", "src/websockets/legacy/protocol.py:WebSocketCommonProtocol.close_connection", "src/websockets/legacy/protocol.py:WebSocketCommonProtocol.wait_for_connection_lost", "src/websockets/legacy/protocol.py:WebSocketCommonProtocol.fail_connection"]}
{"id": "C105", "title": "The write buffer of a legacy connection is bounded", "statement": "In every execution, the write buffer of the transport holds at most write_limit bytes, one frame for each call to send(), ping(), pong() or close() that hasn't ended, and the close frame of fail_connection(). With k tasks that write frames of at most m bytes, it holds at most write_limit + (k + 1) * m bytes, and one more frame for each cancellation of a call. Writing resumes as soon as it holds at most a quarter of write_limit.", "quantifier": "all interleavings of any number of tasks, all sizes of frames, all speeds of the network, all values of write_limit", "why_tests_cant": "unbounded number of tasks and interleavings; flow control is excluded from coverage (pragma: no cover)", "anchors": ["src/websockets/legacy/protocol.py:WebSocketCommonProtocol.connection_made", "src/websockets/legacy/protocol.py:WebSocketCommonProtocol.write_frame", "src/websockets/legacy/protocol.py:WebSocketCommonProtocol._drain", "src/websockets/legacy/protocol.py:WebSocketCommonProtocol.pause_writing", "src/websockets/legacy/protocol.py:WebSocketCommonProtocol.resume_writing", "src/websockets/legacy/protocol.py:WebSocketCommonProtocol.fail_connection"]}
{"id": "C106", "title": "Addresses of a legacy connection are known exactly when it is open", "statement": "local_address and remote_address are None before connection_made(); while the connection is open they are the addresses of the transport and do not change; when the connection isn't open they are None, as their documentation says.", "quantifier": "all executions of a connection (all interleavings of tasks, all inputs, with or without TLS) and all addresses", "why_tests_cant": "unbounded executions; tests use a mock transport or look at the addresses while the connection is open", "anchors": ["src/websockets/legacy/protocol.py:WebSocketCommonProtocol.local_address", "src/websockets/legacy/protocol.py:WebSocketCommonProtocol.remote_address", "src/websockets/legacy/protocol.py:WebSocketCommonProtocol.connection_made"]}
{"id": "C107", "title": "Exceptions carry and display what they were created with", "statement": "Every exception has the arguments of its constructor as attributes, with documented defaults. Its message says what is wrong: whether a header or a parameter is missing, empty or invalid, with its name and value; where parsing failed; the status, number of headers and size of the body of an aborted handshake; and so on.", "quantifier": "all classes of exceptions, all arguments", "why_tests_cant": "tests check one or two instances of each class", "anchors": ["src/websockets/exceptions.py:InvalidHeader", "src/websockets/exceptions.py:InvalidHeaderFormat", "src/websockets/exceptions.py:InvalidOrigin", "src/websockets/exceptions.py:InvalidStatusCode", "src/websockets/exceptions.py:DuplicateParameter", "src/websockets/exceptions.py:InvalidParameterName", "src/websockets/exceptions.py:InvalidParameterValue", "src/websockets/exceptions.py:AbortHandshake", "src/websockets/exceptions.py:RedirectHandshake", "src/websockets/exceptions.py:InvalidURI"]}
