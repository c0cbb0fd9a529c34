{
 "claims": [
  {
   "property": "C01",
   "status": "proved",
   "theorems": [
    "WS.C01_frame_roundtrip"
   ],
   "note": ""
  },
  {
   "property": "C02",
   "status": "proved",
   "theorems": [
    "WS.C02_serialize_iff_wire"
   ],
   "note": ""
  },
  {
   "property": "C03",
   "status": "proved",
   "theorems": [
    "WS.C03_blocked",
    "WS.C03_parse_done_iff",
    "WS.C03_parse_raised",
    "WS.C03_reject_final"
   ],
   "note": ""
  },
  {
   "property": "C04",
   "status": "proved",
   "theorems": [
    "WS.C04_too_big_from_header"
   ],
   "note": ""
  },
  {
   "property": "C05",
   "status": "proved",
   "theorems": [
    "WS.C05_apply_mask",
    "WS.C05_c_eq_python"
   ],
   "note": ""
  },
  {
   "property": "C06",
   "status": "proved",
   "theorems": [
    "WS.C06_close_roundtrip",
    "WS.C06_parse_close_iff",
    "WS.C06_reserved_rejected",
    "WS.C06_serialize_close_iff"
   ],
   "note": ""
  },
  {
   "property": "C07",
   "status": "proved",
   "theorems": [
    "WS.C07_decode_iff",
    "WS.C07_encode_iff",
    "WS.C07_prepare_ctrl",
    "WS.C07_prepare_data",
    "WS.C07_prepare_data_iff",
    "WS.C07_unique"
   ],
   "note": ""
  },
  {
   "property": "C08",
   "status": "proved",
   "theorems": [
    "WS.C08_binary",
    "WS.C08_text"
   ],
   "note": ""
  },
  {
   "property": "C09",
   "status": "proved",
   "theorems": [
    "WS.C09_any_two_chunkings",
    "WS.C09_chunking",
    "WS.C09_chunking_error"
   ],
   "note": ""
  },
  {
   "property": "C10",
   "status": "proved",
   "theorems": [
    "WS.C10_no_loss",
    "WS.C10_read_exact",
    "WS.C10_read_fail_keeps",
    "WS.C10_read_line",
    "WS.C10_read_to_eof",
    "WS.C10_resume"
   ],
   "note": ""
  },
  {
   "property": "C11",
   "status": "proved",
   "theorems": [
    "WS.C11_at_most_one",
    "WS.C11_close_last"
   ],
   "note": ""
  },
  {
   "property": "C12",
   "status": "partial",
   "theorems": [
    "WS.C12_eof_once",
    "WS.C12_nothing_after_eof_false",
    "WS.C12_nothing_after_eof_partial"
   ],
   "note": "Full claim false: after receive_eof() in state OPEN, send_text() writes after the end-of-stream marker (C12_nothing_after_eof_false). Proved: the marker is sent at most once; nothing follows it if the application stops sending once told that the connection ended."
  },
  {
   "property": "C13",
   "status": "proved",
   "theorems": [
    "WS.C13_forward",
    "WS.C13_refused"
   ],
   "note": ""
  },
  {
   "property": "C14",
   "status": "partial",
   "theorems": [
    "WS.C14_close_between_messages_partial",
    "WS.C14_fragmentation_false",
    "WS.C14_fragmentation_partial",
    "WS.C14_no_extension_partial",
    "WS.C14_refused_without_effect"
   ],
   "note": "Full claim false: a refused send_text(fin=False) still sets expect_continuation_frame (C14_fragmentation_false). Proved: all executions whose data calls happen outside CONNECTING and with payloads that can be serialized; without extensions there is no other hypothesis."
  },
  {
   "property": "C15",
   "status": "proved",
   "theorems": [
    "WS.C15_delivered"
   ],
   "note": ""
  },
  {
   "property": "C16",
   "status": "partial",
   "theorems": [
    "WS.C16_deflate_partial",
    "WS.C16_legacy_partial",
    "WS.C16_max_size_false",
    "WS.C16_max_size_partial",
    "WS.Legacy.C16_legacy",
    "WS.Legacy.C16_legacy_false"
   ],
   "note": "Full claim false with permessage-deflate when the limit was reached exactly, as 0 means no limit to zlib (C16_max_size_false, C16_legacy_false). Proved: for all extensions respecting their limit (C16_legacy: from bytes to recv() in the legacy implementation), and for permessage-deflate except that case."
  },
  {
   "property": "C17",
   "status": "partial",
   "theorems": [
    "WS.C17_conforming_partial",
    "WS.C17_eof_after_close",
    "WS.C17_interleaved_control_false"
   ],
   "note": "Full claim false: control frames inside a fragmented message are refused when longer than the remaining size (C17_interleaved_control_false); pings while closing: see C25. Proved for all other conforming peers, without extensions."
  },
  {
   "property": "C18",
   "status": "proved",
   "theorems": [
    "WS.C18_ping_answered",
    "WS.C18_pongs"
   ],
   "note": ""
  },
  {
   "property": "C19",
   "status": "proved",
   "theorems": [
    "WS.C19_close_reply"
   ],
   "note": ""
  },
  {
   "property": "C20",
   "status": "proved",
   "theorems": [
    "WS.C20_failure"
   ],
   "note": ""
  },
  {
   "property": "C21",
   "status": "proved",
   "theorems": [
    "WS.C21_error_fails",
    "WS.C21_failed_inert"
   ],
   "note": ""
  },
  {
   "property": "C22",
   "status": "proved",
   "theorems": [
    "WS.C22_progress",
    "WS.C22_terminates"
   ],
   "note": ""
  },
  {
   "property": "C23",
   "status": "proved",
   "theorems": [
    "WS.C23_end_to_end"
   ],
   "note": "Both ends without extensions; see C69 for extensions."
  },
  {
   "property": "C24",
   "status": "proved",
   "theorems": [
    "WS.C24_mask_bit",
    "WS.C24_masking",
    "WS.C24_reject_mismasked"
   ],
   "note": ""
  },
  {
   "property": "C25",
   "status": "partial",
   "theorems": [
    "WS.C25_after_close_partial",
    "WS.C25_harmless_false",
    "WS.C25_no_ping_partial",
    "WS.C25_ping_fails"
   ],
   "note": "Claim false: any such ping fails the connection with 1011 (C25_ping_fails holds for every state reached after sending a close frame). Proved: other frames are harmless, and pings after the close frame of the peer too."
  },
  {
   "property": "C26",
   "status": "partial",
   "theorems": [
    "WS.C26_any_path",
    "WS.C26_non_ascii_false",
    "WS.C26_request_roundtrip_partial"
   ],
   "note": "Full claim false: a path that is not ASCII is sent as UTF-8 and read as surrogates (C26_non_ascii_false). Proved for all ASCII paths; C26_any_path says what is read for every path without spaces and line feeds."
  },
  {
   "property": "C27",
   "status": "proved",
   "theorems": [
    "WS.C27_response_roundtrip"
   ],
   "note": ""
  },
  {
   "property": "C28",
   "status": "proved",
   "theorems": [
    "WS.C28_request_limits",
    "WS.C28_response_limits"
   ],
   "note": ""
  },
  {
   "property": "C29",
   "status": "partial",
   "theorems": [
    "WS.C29_bounded_false",
    "WS.C29_long_line_partial",
    "WS.C29_request_partial"
   ],
   "note": "Claim false for every bound (C29_bounded_false): read_line() buffers until LF. Proved: long lines are refused once complete."
  },
  {
   "property": "C30",
   "status": "proved",
   "theorems": [
    "WS.C30_request_clean",
    "WS.C30_response_clean"
   ],
   "note": ""
  },
  {
   "property": "C31",
   "status": "proved",
   "theorems": [
    "WS.C31_eq",
    "WS.C31_lookups",
    "WS.C31_raw_items"
   ],
   "note": ""
  },
  {
   "property": "C32",
   "status": "partial",
   "theorems": [
    "WS.C32_copy_false",
    "WS.C32_independent_partial",
    "WS.C32_leak_partial"
   ],
   "note": "Claim false: copy() shares the inner lists of values (C32_copy_false). Proved: exactly which lookups may change, and independence for other names."
  },
  {
   "property": "C33",
   "status": "proved",
   "theorems": [
    "WS.C33_connection",
    "WS.C33_extension",
    "WS.C33_subprotocol",
    "WS.C33_upgrade"
   ],
   "note": ""
  },
  {
   "property": "C34",
   "status": "proved",
   "theorems": [
    "WS.C34_extensions",
    "WS.C34_subprotocols"
   ],
   "note": ""
  },
  {
   "property": "C35",
   "status": "partial",
   "theorems": [
    "WS.C35_refused_partial",
    "WS.C35_round_trip_false",
    "WS.C35_round_trip_partial"
   ],
   "note": "Full claim false for characters 0x80-0xff (C35_round_trip_false). Proved for ASCII; other strings are refused."
  },
  {
   "property": "C36",
   "status": "proved",
   "theorems": [
    "WS.C36_colon",
    "WS.C36_credentials"
   ],
   "note": ""
  },
  {
   "property": "C37",
   "status": "partial",
   "theorems": [
    "WS.C37_errors_false",
    "WS.C37_errors_partial"
   ],
   "note": "Full claim false: UnicodeDecodeError escapes (C37_errors_false). Proved: it is the only other exception."
  },
  {
   "property": "C38",
   "status": "proved",
   "theorems": [
    "WS.C38_decode",
    "WS.C38_key",
    "WS.C38_rfc4648",
    "WS.C38_round_trip"
   ],
   "note": ""
  },
  {
   "property": "C39",
   "status": "proved",
   "theorems": [
    "WS.C39_attributes",
    "WS.C39_upgrade"
   ],
   "note": ""
  },
  {
   "property": "C40",
   "status": "partial",
   "theorems": [
    "WS.C40_diagnosis",
    "WS.C40_status_false",
    "WS.C40_status_partial"
   ],
   "note": "Full claim false for headers with lone surrogates (C40_status_false). Proved for all requests whose examined headers can be encoded."
  },
  {
   "property": "C41",
   "status": "partial",
   "theorems": [
    "WS.C41_returns_false",
    "WS.C41_returns_partial"
   ],
   "note": "Full claim false for headers with lone surrogates (C41_returns_false). Proved for all requests whose examined headers can be encoded."
  },
  {
   "property": "C42",
   "status": "proved",
   "theorems": [
    "WS.C42_exactly_valid",
    "WS.C42_exception",
    "WS.C42_only_valid"
   ],
   "note": ""
  },
  {
   "property": "C43",
   "status": "partial",
   "theorems": [
    "WS.C43_agreement_false",
    "WS.C43_agreement_partial",
    "WS.C43_compatible",
    "WS.C43_deflate"
   ],
   "note": "Full claim false: with server_max_window_bits or client_max_window_bits 8, zlib refuses the window after the server answered (C43_agreement_false). Proved for all pairs of configurations whose factories are compatible, in any chunking; permessage-deflate factories are, except for that case."
  },
  {
   "property": "C44",
   "status": "proved",
   "theorems": [
    "WS.C44_accept",
    "WS.C44_selection"
   ],
   "note": ""
  },
  {
   "property": "C45",
   "status": "partial",
   "theorems": [
    "WS.C45_deterministic_false",
    "WS.C45_deterministic_partial",
    "WS.C45_same_order_partial"
   ],
   "note": "Full claim false for equal priorities (C45_deterministic_false). Proved when there are no ties, or for the same order of the set."
  },
  {
   "property": "C46",
   "status": "proved",
   "theorems": [
    "WS.C46_client",
    "WS.C46_enable_client",
    "WS.C46_enable_server",
    "WS.C46_server"
   ],
   "note": ""
  },
  {
   "property": "C47",
   "status": "partial",
   "theorems": [
    "WS.C47_accepts",
    "WS.C47_agree_false",
    "WS.C47_agree_partial",
    "WS.C47_client",
    "WS.C47_windows"
   ],
   "note": "Full claim false for a window of 8 bits (C47_agree_false). Proved for every zlib that creates the encoder."
  },
  {
   "property": "C48",
   "status": "proved",
   "theorems": [
    "WS.C48_client",
    "WS.C48_extract",
    "WS.C48_server"
   ],
   "note": ""
  },
  {
   "property": "C49",
   "status": "partial",
   "theorems": [
    "WS.C49_round_trip_false",
    "WS.C49_round_trip_partial",
    "WS.C49_stack"
   ],
   "note": "Full claim false for a window of 8 bits without context takeover (C49_round_trip_false). Proved when encoders can be created, for every zlib satisfying the stated contract."
  },
  {
   "property": "C50",
   "status": "partial",
   "theorems": [
    "WS.C50_limit_false",
    "WS.C50_limit_partial"
   ],
   "note": "Full claim false for a limit of 0 (C50_limit_false). Proved for all other limits."
  },
  {
   "property": "C51",
   "status": "partial",
   "theorems": [
    "WS.Legacy.C51_closed_false",
    "WS.Legacy.C51_closed_partial",
    "WS.Legacy.C51_complete_partial",
    "WS.Legacy.C51_lost_false",
    "WS.Legacy.C51_no_invalid_state",
    "WS.Legacy.C51_order_partial",
    "WS.Legacy.C51_recv_available"
   ],
   "note": "Full claim false: concurrent recv() and cancellation lose the waiter, and a message in hand is lost when transfer_data is cancelled (C51_closed_false, C51_lost_false). Proved: order, no duplicates, completeness in all other executions."
  },
  {
   "property": "C52",
   "status": "proved",
   "theorems": [
    "WS.Legacy.C52_backpressure",
    "WS.Legacy.C52_bounded",
    "WS.Legacy.C52_resumes"
   ],
   "note": ""
  },
  {
   "property": "C53",
   "status": "partial",
   "theorems": [
    "WS.Legacy.C53_concurrent_false",
    "WS.Legacy.C53_concurrent_partial",
    "WS.Legacy.C53_notified_partial",
    "WS.Legacy.C53_refused"
   ],
   "note": "Full claim false after recv() was cancelled (C53_concurrent_false). Proved: refusal always; no harm if no cancelled recv() is pending."
  },
  {
   "property": "C54",
   "status": "partial",
   "theorems": [
    "WS.LegacyConn.C54_cancel_false",
    "WS.LegacyConn.C54_contiguous_iff",
    "WS.LegacyConn.C54_contiguous_partial",
    "WS.LegacyConn.C54_first_false",
    "WS.LegacyConn.C54_fragmentation_partial",
    "WS.LegacyConn.C54_until_partial"
   ],
   "note": "Full claim false for asynchronous iterables and cancellation (C54_first_false, C54_cancel_false). Proved for all other executions. In all executions, frames are contiguous until a message starts in the middle of another (C54_until_partial, C54_contiguous_iff)."
  },
  {
   "property": "C55",
   "status": "proved",
   "theorems": [
    "WS.LegacyConn.C55_acknowledges",
    "WS.LegacyConn.C55_order",
    "WS.LegacyConn.C55_outcome",
    "WS.LegacyConn.C55_sound",
    "WS.LegacyConn.C55_unsolicited"
   ],
   "note": ""
  },
  {
   "property": "C56",
   "status": "partial",
   "theorems": [
    "WS.LegacyConn.C56_false",
    "WS.LegacyConn.C56_ping_partial"
   ],
   "note": "Claim false (C56_false: KeyError). Proved: ping() returns the waiter if the pong does not arrive while it drains."
  },
  {
   "property": "C57",
   "status": "proved",
   "theorems": [
    "WS.LegacyConn.C57_close_frame",
    "WS.LegacyConn.C57_open"
   ],
   "note": ""
  },
  {
   "property": "C58",
   "status": "proved",
   "theorems": [
    "WS.LegacyClose.C58_close",
    "WS.LegacyClose.C58_raises",
    "WS.LegacyClose.C58_transport",
    "WS.LegacyClose.C58_unconditional"
   ],
   "note": "Relative to the duration of the abort of the transport, which counts separately; code takes no time."
  },
  {
   "property": "C59",
   "status": "proved",
   "theorems": [
    "WS.LegacyConn.C59_exception",
    "WS.LegacyConn.C59_ok"
   ],
   "note": ""
  },
  {
   "property": "C60",
   "status": "partial",
   "theorems": [
    "WS.LegacyAuth.C60_arguments",
    "WS.LegacyAuth.C60_duplicate_false",
    "WS.LegacyAuth.C60_iterator",
    "WS.LegacyAuth.C60_list",
    "WS.LegacyAuth.C60_only",
    "WS.LegacyAuth.C60_pair",
    "WS.LegacyAuth.C60_passes",
    "WS.LegacyAuth.C60_refused_partial",
    "WS.LegacyAuth.C60_tuple",
    "WS.LegacyAuth.C60_utf8_false"
   ],
   "note": "Full claim false: 500 for duplicate or badly encoded Authorization headers (C60_duplicate_false, C60_utf8_false). Proved: access only with accepted credentials, for all requests; 401 for all other refusals."
  },
  {
   "property": "C61",
   "status": "proved",
   "theorems": [
    "WS.LegacyClient.C61_bounded",
    "WS.LegacyClient.C61_follows",
    "WS.LegacyClient.C61_no_downgrade",
    "WS.LegacyClient.C61_raises"
   ],
   "note": ""
  },
  {
   "property": "C62",
   "status": "partial",
   "theorems": [
    "WS.Uri.C62_form",
    "WS.Uri.C62_future_false",
    "WS.Uri.C62_recovers",
    "WS.Uri.C62_uri_partial",
    "WS.Uri.C62_userinfo_false"
   ],
   "note": "Full claim false for IPvFuture hosts and brackets in the user information (C62_future_false, C62_userinfo_false). Proved for every other ASCII URI."
  },
  {
   "property": "C63",
   "status": "partial",
   "theorems": [
    "WS.LegacyOwner.C63_handler",
    "WS.LegacyOwner.C63_unstarted_false",
    "WS.LegacyRegistry.C63_cancel_false",
    "WS.LegacyRegistry.C63_going_away",
    "WS.LegacyRegistry.C63_late_false",
    "WS.LegacyRegistry.C63_no_new",
    "WS.LegacyRegistry.C63_open_closed",
    "WS.LegacyRegistry.C63_refused",
    "WS.LegacyRegistry.C63_registry",
    "WS.LegacyRegistry.C63_shutdown_partial",
    "WS.LegacyRegistry.C63_twice"
   ],
   "note": "Full claim false for connections made after the server waited for handlers and for handlers cancelled during the opening handshake (C63_late_false, C63_cancel_false). Proved for all other event sequences. The model simulates the detailed model of a handler (C63_handler), unless its tasks are cancelled early (C63_unstarted_false)."
  },
  {
   "property": "C64",
   "status": "proved",
   "theorems": [
    "WS.Uri.C64_parse",
    "WS.Uri.C64_quote"
   ],
   "note": ""
  },
  {
   "property": "C65",
   "status": "proved",
   "theorems": [
    "WS.Uri.C65_clean"
   ],
   "note": ""
  },
  {
   "property": "C66",
   "status": "partial",
   "theorems": [
    "WS.LegacyServer.C66_opened",
    "WS.LegacyServer.C66_shutdown",
    "WS.LegacyServer.C66_status_false",
    "WS.LegacyServer.C66_status_partial"
   ],
   "note": "Full claim false for lone surrogates in some headers (C66_status_false). Proved: opened only for valid handshakes, without exception; status of the response for all other requests."
  },
  {
   "property": "C67",
   "status": "proved",
   "theorems": [
    "WS.LegacyClient.C67_accepts",
    "WS.LegacyClient.C67_opened"
   ],
   "note": ""
  },
  {
   "property": "C68",
   "status": "partial",
   "theorems": [
    "WS.LegacyClient.C68_only_secure",
    "WS.LegacyClient.C68_override",
    "WS.LegacyClient.C68_target",
    "WS.LegacyClient.C68_tls_false",
    "WS.LegacyClient.C68_tls_partial"
   ],
   "note": "Full claim false: redirect from ws to wss without TLS (C68_tls_false). Proved for all other runs."
  },
  {
   "property": "C69",
   "status": "proved",
   "theorems": [
    "WS.C69_configured",
    "WS.C69_deflate",
    "WS.C69_session"
   ],
   "note": "For every zlib satisfying Contract, Bounded and Faithful (what its documentation says), and encoders that can be created (see C47); messages short enough for their compressed form to have less than 2^64 bytes."
  },
  {
   "property": "C70",
   "status": "proved",
   "theorems": [
    "WS.Legacy.C70_frame",
    "WS.Legacy.C70_request",
    "WS.Legacy.C70_response"
   ],
   "note": "asyncio.StreamReader is modelled after Python 3.11, without set_exception. read_limit >= 8218 for handshakes (default 65536)."
  },
  {
   "property": "C71",
   "status": "proved",
   "theorems": [
    "WS.Legacy.C71_bounded",
    "WS.Legacy.C71_no_stall",
    "WS.Legacy.C71_paused"
   ],
   "note": "8 bytes (an extended length) count even if read_limit and max_size are smaller. The transport delivers no data while paused."
  },
  {
   "property": "C72",
   "status": "proved",
   "theorems": [
    "WS.C72_read",
    "WS.C72_ready",
    "WS.C72_request",
    "WS.C72_valid"
   ],
   "note": ""
  },
  {
   "property": "C73",
   "status": "partial",
   "theorems": [
    "WS.C73_credentials_false",
    "WS.C73_credentials_partial"
   ],
   "note": "Full claim false: parse_uri does not percent-decode the user information (C73_credentials_false). Proved for user information without percent sign."
  },
  {
   "property": "C74",
   "status": "proved",
   "theorems": [
    "WS.C74_released"
   ],
   "note": ""
  },
  {
   "property": "C75",
   "status": "proved",
   "theorems": [
    "WS.Legacy.C75_alive",
    "WS.Legacy.C75_between",
    "WS.Legacy.C75_closed",
    "WS.Legacy.C75_complete",
    "WS.Legacy.C75_interrupted",
    "WS.Legacy.C75_order",
    "WS.Legacy.C75_unfinished"
   ],
   "note": "For every channel of extensions (C69); the instance for permessage-deflate depends on the contract of zlib. pong() and write_close_frame() end with any result at any time."
  },
  {
   "property": "C76",
   "status": "partial",
   "theorems": [
    "WS.LegacyConn.C76_cancel_false",
    "WS.LegacyConn.C76_delivered_partial",
    "WS.LegacyConn.C76_sent_partial",
    "WS.LegacyConn.C76_sent_until_partial",
    "WS.LegacyConn.C76_until_partial"
   ],
   "note": "Full claim false when a call to send() with an iterator is cancelled or an asynchronous iterator suspends before its first item (C54_first_false, C54_cancel_false, C76_cancel_false). Proved for all other executions. In all executions, messages are delivered until one starts in the middle of another (C76_until_partial)."
  },
  {
   "property": "C77",
   "status": "proved",
   "theorems": [
    "WS.LegacyDrain.C77_assertion",
    "WS.LegacyDrain.C77_backpressure",
    "WS.LegacyDrain.C77_cancelled",
    "WS.LegacyDrain.C77_completes",
    "WS.LegacyDrain.C77_exclusive",
    "WS.LegacyDrain.C77_lost",
    "WS.LegacyDrain.C77_open",
    "WS.LegacyDrain.C77_order",
    "WS.LegacyDrain.C77_progress",
    "WS.LegacyDrain.C77_three",
    "WS.LegacyDrain.C77_uncancelled"
   ],
   "note": ""
  },
  {
   "property": "C78",
   "status": "partial",
   "theorems": [
    "WS.Uri.C78_form_partial",
    "WS.Uri.C78_ipv4",
    "WS.Uri.C78_ipv6",
    "WS.Uri.C78_junk_false",
    "WS.Uri.C78_port",
    "WS.Uri.C78_space_false"
   ],
   "note": "Full claim false: spaces in the resource name are kept (C78_space_false) and text outside the brackets of an address is ignored (C78_junk_false). Proved: the form of every accepted ASCII string with these deviations made explicit, the range of ports, and that ipaddress accepts exactly the addresses of RFC 3986. IRIs depend on the idna codec."
  },
  {
   "property": "C79",
   "status": "partial",
   "theorems": [
    "WS.KeepaliveModels.C79_conn",
    "WS.LegacyKeepalive.C79_backpressure_false",
    "WS.LegacyKeepalive.C79_detects_false",
    "WS.LegacyKeepalive.C79_detects_partial",
    "WS.LegacyKeepalive.C79_keyError_false",
    "WS.LegacyKeepalive.C79_messages",
    "WS.LegacyKeepalive.C79_noTimeout",
    "WS.LegacyKeepalive.C79_onePending_false",
    "WS.LegacyKeepalive.C79_patient_partial",
    "WS.LegacyKeepalive.C79_paused_false",
    "WS.LegacyKeepalive.C79_pending_partial",
    "WS.LegacyKeepalive.C79_progress",
    "WS.LegacyKeepalive.C79_sound",
    "WS.LegacyKeepalive.C79_unbounded_false",
    "WS.LegacyKeepalive.C79_undisturbed_partial"
   ],
   "note": "Full claims false: keepalive_ping waits without a timeout if writing is paused (C79_paused_false), crashes if the pong arrives before ping() returns (C79_keyError_false), fails responsive peers under backpressure (C79_backpressure_false), accumulates pings without a timeout (C79_unbounded_false). Proved: bounded detection if writing is not paused when pings are sent, patience if transfer_data is not blocked, in particular if writing is not paused and there is room in the queue or max_queue is None (C79_undisturbed_partial), soundness and progress for all executions, one pending ping if there is a timeout."
  },
  {
   "property": "C80",
   "status": "proved",
   "theorems": [
    "WS.C80_closing",
    "WS.C80_session"
   ],
   "note": ""
  },
  {
   "property": "C81",
   "status": "partial",
   "theorems": [
    "WS.C81_codes_false",
    "WS.C81_codes_partial",
    "WS.C81_session_partial"
   ],
   "note": "Full claim false: when a ping crosses the close frame, receive_data raises InvalidState and no code is reported (C81_codes_false). Proved for all executions in which receive_data does not raise."
  },
  {
   "property": "C82",
   "status": "partial",
   "theorems": [
    "WS.LegacyLife.C82_aborted_false",
    "WS.LegacyLife.C82_aborted_partial",
    "WS.LegacyLife.C82_broken",
    "WS.LegacyLife.C82_cancel_waiting",
    "WS.LegacyLife.C82_cancellation",
    "WS.LegacyLife.C82_close_ends",
    "WS.LegacyLife.C82_close_frame",
    "WS.LegacyLife.C82_close_reason",
    "WS.LegacyLife.C82_close_returns",
    "WS.LegacyLife.C82_code",
    "WS.LegacyLife.C82_deadlock_false",
    "WS.LegacyLife.C82_discarded",
    "WS.LegacyLife.C82_final_false",
    "WS.LegacyLife.C82_final_partial",
    "WS.LegacyLife.C82_progress_false",
    "WS.LegacyLife.C82_reader",
    "WS.LegacyLife.C82_results_false",
    "WS.LegacyLife.C82_results_partial",
    "WS.LegacyLife.C82_states",
    "WS.LegacyLife.C82_transport_false",
    "WS.LegacyLife.C82_transport_partial",
    "WS.LegacyLife.C82_waiting",
    "WS.LegacyModels.C82_conn"
   ],
   "note": "Full claims false: transport left open when close_connection is cancelled too early or too late (C82_transport_false, C82_aborted_false), code changing after CLOSED (C82_final_false), AttributeError (C82_results_false), waits without timeout and a deadlock (C82_progress_false, C82_deadlock_false). Proved for all executions: states, close frames, the value of close_code, termination and effect of close(), and a complete list of the ways to wait; the other claims under the stated conditions."
  },
  {
   "property": "C83",
   "status": "partial",
   "theorems": [
    "WS.Interop.C83_clients_false",
    "WS.Interop.C83_clients_partial",
    "WS.Interop.C83_early_frames",
    "WS.Interop.C83_handshake_false",
    "WS.Interop.C83_handshake_partial",
    "WS.Interop.C83_refused_legacy",
    "WS.Interop.C83_refused_sansio",
    "WS.Interop.C83_servers"
   ],
   "note": "Full claims false: a Transfer-Encoding header in the response (C83_clients_false), a window of 8 bits (C83_handshake_false). Proved: servers accept the same requests (iff), clients accept the same responses (iff) without Transfer-Encoding, all four combinations connect under the hypotheses of C43, refused clients are never connected."
  },
  {
   "property": "C84",
   "status": "partial",
   "theorems": [
    "WS.Interop.C84_cancel_false",
    "WS.Interop.C84_legacy_writes",
    "WS.Interop.C84_session_partial",
    "WS.Interop.C84_transfers_partial",
    "WS.Interop.C84_until_partial"
   ],
   "note": "Full claim false when a legacy call to send that sends a fragmented message is cancelled (C84_cancel_false). Proved for calm executions of legacy senders (Spec.Calm of C54) and for all executions of sans-I/O senders and of both receivers. In all executions of legacy senders, messages are delivered until one starts in the middle of another (C84_until_partial)."
  },
  {
   "property": "C85",
   "status": "partial",
   "theorems": [
    "WS.Imports.Call.C85_attributes",
    "WS.Imports.Call.C85_conflict",
    "WS.Imports.Call.C85_dir_partial",
    "WS.Imports.Call.C85_eager",
    "WS.Imports.Call.C85_missing",
    "WS.Imports.Call.C85_warnings",
    "WS.Imports.Repo.C85_all",
    "WS.Imports.Repo.C85_dir_false",
    "WS.Imports.Repo.C85_repo"
   ],
   "note": "Full claim false for dir(), which lacks names defined after the call to lazy_import (C85_dir_false). Everything else proved: attributes (iff), conflicts (iff), warnings, eager imports, and the declarations of /repo."
  },
  {
   "property": "C86",
   "status": "partial",
   "theorems": [
    "WS.Interactive.C86_sent_false",
    "WS.Interactive.C86_shown_false",
    "WS.Interactive.Client.C86_all_shown",
    "WS.Interactive.Client.C86_calls",
    "WS.Interactive.Client.C86_interrupt",
    "WS.Interactive.Client.C86_no_conflict",
    "WS.Interactive.Client.C86_progress",
    "WS.Interactive.Client.C86_sent_partial",
    "WS.Interactive.Client.C86_shown_partial"
   ],
   "note": "Full claims false: lines typed before Ctrl-D may not be sent (C86_sent_false), messages may not be displayed if send raises an exception (C86_shown_false). Proved for all executions: order and accounts of messages and lines, all messages displayed when the connection is closed otherwise, no concurrent recv, at most one iteration after an interruption, no deadlock."
  },
  {
   "property": "C87",
   "status": "partial",
   "theorems": [
    "WS.LegacyHandler.Server.C87_aborts",
    "WS.LegacyHandler.Server.C87_answered",
    "WS.LegacyHandler.Server.C87_closed_false",
    "WS.LegacyHandler.Server.C87_closed_partial",
    "WS.LegacyHandler.Server.C87_ends",
    "WS.LegacyHandler.Server.C87_refines",
    "WS.LegacyHandler.Server.C87_refused",
    "WS.LegacyHandler.Server.C87_registered_false",
    "WS.LegacyHandler.Server.C87_registered_partial",
    "WS.LegacyHandler.Server.C87_responses"
   ],
   "note": "Full claim false: the TCP connection may be open when handler ends with an exception or is cancelled (C87_closed_false), and a handler cancelled before it starts stays registered (C87_registered_false). Proved for all executions: responses, calls of the application, closing when it ends normally, termination, unregistration."
  },
  {
   "property": "C88",
   "status": "partial",
   "theorems": [
    "WS.LegacyHandler.Client.C88_cancel_false",
    "WS.LegacyHandler.Client.C88_connect_partial",
    "WS.LegacyHandler.Client.C88_ends",
    "WS.LegacyHandler.Client.C88_leave",
    "WS.LegacyHandler.Client.C88_refines",
    "WS.LegacyHandler.Client.C88_refused"
   ],
   "note": "Full claim false: cancelling connect in the opening handshake leaks the TCP connection (C88_cancel_false). Proved for all executions: closing after failed handshakes and when the body ends in any way, termination."
  },
  {
   "property": "C89",
   "status": "partial",
   "theorems": [
    "WS.Terminal.C89_binary_false",
    "WS.Terminal.C89_during",
    "WS.Terminal.C89_escape_false",
    "WS.Terminal.C89_hex",
    "WS.Terminal.C89_multiline_false",
    "WS.Terminal.C89_over",
    "WS.Terminal.C89_session_partial"
   ],
   "note": "Full claim false: messages that contain newlines or are longer than a line overwrite the line that is being typed (C89_multiline_false), escape sequences in messages are executed (C89_escape_false), text and binary messages are ambiguous (C89_binary_false). Proved for all sequences of messages that fit on a line and are printable, on all terminals."
  },
  {
   "property": "C90",
   "status": "proved",
   "theorems": [
    "WS.LegacyIter.C90_complete",
    "WS.LegacyIter.C90_ends",
    "WS.LegacyIter.C90_legacy_order",
    "WS.LegacyIter.C90_legacy_recv",
    "WS.LegacyIter.C90_order",
    "WS.LegacyIter.C90_shared",
    "WS.LegacyIter.C90_terminates"
   ],
   "note": ""
  },
  {
   "property": "C91",
   "status": "proved",
   "theorems": [
    "WS.C91_format",
    "WS.C91_injective",
    "WS.C91_names",
    "WS.C91_parsed",
    "WS.LegacyConn.C91_assertions",
    "WS.LegacyConn.C91_displayed"
   ],
   "note": ""
  },
  {
   "property": "C92",
   "status": "proved",
   "theorems": [
    "WS.LegacyLife.C92_closed",
    "WS.LegacyLife.C92_forever",
    "WS.LegacyLife.C92_open",
    "WS.LegacyLife.C92_pristine",
    "WS.LegacyLife.C92_refused",
    "WS.LegacyLife.C92_write"
   ],
   "note": ""
  },
  {
   "property": "C93",
   "status": "proved",
   "theorems": [
    "WS.LegacyClient.C93_place",
    "WS.LegacyConfig.C93_client",
    "WS.LegacyConfig.C93_client_constructor",
    "WS.LegacyConfig.C93_compression",
    "WS.LegacyConfig.C93_created",
    "WS.LegacyConfig.C93_origins",
    "WS.LegacyConfig.C93_server",
    "WS.LegacyConfig.C93_server_constructor"
   ],
   "note": ""
  },
  {
   "property": "C94",
   "status": "proved",
   "theorems": [
    "WS.Legacy.C94_bounded",
    "WS.Legacy.C94_size_text"
   ],
   "note": ""
  },
  {
   "property": "C95",
   "status": "proved",
   "theorems": [
    "WS.LegacyConn.C95_answer",
    "WS.LegacyConn.C95_closing",
    "WS.LegacyConn.C95_pongs"
   ],
   "note": ""
  },
  {
   "property": "C96",
   "status": "proved",
   "theorems": [
    "WS.LegacyConn.C96_fail",
    "WS.LegacyConn.C96_reason",
    "WS.LegacyConn.C96_reply"
   ],
   "note": ""
  },
  {
   "property": "C97",
   "status": "partial",
   "theorems": [
    "WS.MainThread.C97_hang_false",
    "WS.MainThread.C97_lines",
    "WS.MainThread.C97_loop_closed",
    "WS.MainThread.C97_no_deadlock_partial",
    "WS.MainThread.C97_normal_partial",
    "WS.MainThread.C97_once",
    "WS.MainThread.C97_start_false",
    "WS.MainThread.C97_terminates",
    "WS.MainThread.C97_traceback_false",
    "WS.MainThread.C97_twice_false"
   ],
   "note": "Full claims false: the process hangs if close() raises an exception in run_client (C97_hang_false), ends with a traceback if KeyboardInterrupt is raised outside of the try clause (C97_start_false, C97_traceback_false), and run_client may not be told to stop after Ctrl-C twice (C97_twice_false). Proved for all executions: order of lines, stop set once, loop closed after its thread, termination in 8 steps when run_client returned; partial: no deadlock unless close() raises, no traceback if main() is interrupted once while it reads lines."
  },
  {
   "property": "C98",
   "status": "partial",
   "theorems": [
    "WS.BytesLike.C98_bytes_partial",
    "WS.BytesLike.C98_chars",
    "WS.BytesLike.C98_errors",
    "WS.BytesLike.C98_exactly",
    "WS.BytesLike.C98_injection_false",
    "WS.BytesLike.C98_python_false",
    "WS.BytesLike.C98_raises_false",
    "WS.BytesLike.C98_sent_false",
    "WS.BytesLike.C98_truncated"
   ],
   "note": "Full claim false: for memoryviews whose items have several bytes, the payload is longer than the header says and the rest is read as frames (C98_injection_false, C98_sent_false), or bytes are lost (C98_python_false), or exceptions are raised (C98_raises_false). Proved for all bytes, bytearray and contiguous memoryviews of unsigned bytes, with an exact characterisation of the objects for which it holds (C98_exactly)."
  },
  {
   "property": "C99",
   "status": "partial",
   "theorems": [
    "WS.Speedups.C99_aligned_false",
    "WS.Speedups.C99_aligned_partial",
    "WS.Speedups.C99_result",
    "WS.Speedups.C99_safe",
    "WS.Speedups.C99_utils"
   ],
   "note": "Full claim false: integers are accessed at addresses that are not aligned, for slices of memoryviews and other buffers (C99_aligned_false). Everything else proved for all arguments, addresses and failures of API calls; alignment proved if the buffers are aligned (C99_aligned_partial)."
  },
  {
   "property": "C100",
   "status": "partial",
   "theorems": [
    "WS.LegacyRegistry.C100_bounded",
    "WS.LegacyRegistry.C100_ends_partial",
    "WS.LegacyRegistry.C100_reaches_partial",
    "WS.LegacyRegistry.C100_silent_false",
    "WS.LegacyRegistry.C100_waits"
   ],
   "note": "Full claim false: a client that connects and does not send a request prevents the server from shutting down, because there is no timeout (C100_silent_false, C100_waits). Proved if every client in the opening handshake sends a request or breaks the connection, or if there is none (C100_ends_partial, C100_reaches_partial); the number of steps is bounded in all cases (C100_bounded)."
  },
  {
   "property": "C101",
   "status": "partial",
   "theorems": [
    "WS.Exceptions.C101_classes",
    "WS.Exceptions.C101_closed",
    "WS.Exceptions.C101_copy_partial",
    "WS.Exceptions.C101_message_false",
    "WS.Exceptions.C101_raises_false"
   ],
   "note": "Full claim false for the 14 classes with a constructor that replaces the arguments by a message (C101_raises_false: copying raises TypeError; C101_message_false: the copy displays another message). Proved for the 9 other classes (C101_copy_partial); every class is covered (C101_classes)."
  },
  {
   "property": "C102",
   "status": "partial",
   "theorems": [
    "WS.LegacySystem.C102_bounded",
    "WS.LegacySystem.C102_connections",
    "WS.LegacySystem.C102_describes",
    "WS.LegacySystem.C102_ends_partial",
    "WS.LegacySystem.C102_handlers_end",
    "WS.LegacySystem.C102_no_new",
    "WS.LegacySystem.C102_open_closed",
    "WS.LegacySystem.C102_reaches_partial",
    "WS.LegacySystem.C102_registered",
    "WS.LegacySystem.C102_shutdown",
    "WS.LegacySystem.C102_silent_false",
    "WS.LegacySystem.C102_tasks_end"
   ],
   "note": "Last part of the claim false: a client that connects and does not send a request prevents the server from shutting down (C102_silent_false, C100_silent_false). Proved if clients send their requests, or if no opening handshake is in progress, whether or not clients take part in closing handshakes (C102_ends_partial, C102_reaches_partial); the number of steps is bounded in all cases (C102_bounded). The other parts are proved in full."
  },
  {
   "property": "C103",
   "status": "partial",
   "theorems": [
    "WS.LegacyServe.C103_closed_partial",
    "WS.LegacyServe.C103_leaves_partial",
    "WS.LegacyServe.C103_left_partial",
    "WS.LegacyServe.C103_reuse_false",
    "WS.LegacyServe.C103_reuse_open_false",
    "WS.LegacyServe.C103_started",
    "WS.LegacyServe.C103_system"
   ],
   "note": "Full claim false for a Serve object that is entered twice: the second statement ends at once, asyncio goes on listening and connections stay open (C103_reuse_false, C103_reuse_open_false). Proved if it is entered once (C103_left_partial); it always ends if, moreover, clients send their requests (C103_leaves_partial, see C102). C103_system and C103_started are proved in full."
  },
  {
   "property": "C104",
   "status": "proved",
   "theorems": [
    "WS.LegacyTimed.C104_close",
    "WS.LegacyTimed.C104_ends",
    "WS.LegacyTimed.C104_failed",
    "WS.LegacyTimed.C104_life",
    "WS.LegacyTimed.C104_patient",
    "WS.LegacyTimed.C104_progress",
    "WS.LegacyTimed.C104_waits"
   ],
   "note": ""
  },
  {
   "property": "C105",
   "status": "partial",
   "theorems": [
    "WS.LegacyBuffer.C105_bounded_partial",
    "WS.LegacyBuffer.C105_cancel_false",
    "WS.LegacyBuffer.C105_resume",
    "WS.LegacyBuffer.C105_tasks"
   ],
   "note": "Full claim false if calls are cancelled: frames of calls that were cancelled stay in the buffer, which is unbounded (C105_cancel_false). Proved for all executions without cancellations (C105_bounded_partial), and for all executions with one more frame for each cancellation (C105_tasks)."
  },
  {
   "property": "C106",
   "status": "partial",
   "theorems": [
    "WS.LegacyAddress.C106_before",
    "WS.LegacyAddress.C106_closed_false",
    "WS.LegacyAddress.C106_connecting_false",
    "WS.LegacyAddress.C106_known",
    "WS.LegacyAddress.C106_open_false",
    "WS.LegacyAddress.C106_tls"
   ],
   "note": "Full claim false: addresses are known during the opening handshake (C106_connecting_false) and, without TLS, after the connection is closed (C106_closed_false); with TLS, they may be None just before connection_lost (C106_open_false). Proved for all executions: None before connection_made; constant afterwards, unless the transport below TLS is lost (C106_known); None once closed with TLS (C106_tls)."
  },
  {
   "property": "C107",
   "status": "partial",
   "theorems": [
    "WS.Exceptions.C107_abort",
    "WS.Exceptions.C107_attributes",
    "WS.Exceptions.C107_count_false",
    "WS.Exceptions.C107_format",
    "WS.Exceptions.C107_header",
    "WS.Exceptions.C107_messages",
    "WS.Exceptions.C107_origin",
    "WS.Exceptions.C107_parameter"
   ],
   "note": "Everything is proved except for the number of headers in the message of AbortHandshake, which counts names, not headers (C107_count_false)."
  }
 ]
}