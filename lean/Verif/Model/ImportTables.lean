import Verif.Model.Imports

/-!
# What the modules of /repo/src/websockets define

Generated from the source code: for each module, the names that its top-level statements bind (assignments, `def`,
`class`, `import` and `from … import`; not those in `if` and `try` statements), with the module that defines the object and its name
there.  `__main__` and the C extension `speedups` aren't included.
-/

namespace WS.Imports.Repo

/-- The module that defines an object, and its name there (empty for a module). -/
abbrev Obj := PyStr × PyStr

/-- /repo/src/websockets/__init__.py -/
def names_websockets : List (PyStr × Obj) := [
  (p!"lazy_import", p!"websockets.imports", p!"lazy_import"), (p!"__version__", p!"websockets.version", p!"version"),
  (p!"__all__", p!"websockets", p!"__all__")]

/-- /repo/src/websockets/client.py -/
def names_websockets_client : List (PyStr × Obj) := [
  (p!"collections", p!"collections", p!""), (p!"logging", p!"logging", p!""),
  (p!"Generator", p!"typing", p!"Generator"), (p!"List", p!"typing", p!"List"),
  (p!"Optional", p!"typing", p!"Optional"), (p!"Sequence", p!"typing", p!"Sequence"),
  (p!"CLIENT", p!"websockets.connection", p!"CLIENT"), (p!"CONNECTING", p!"websockets.connection", p!"CONNECTING"),
  (p!"OPEN", p!"websockets.connection", p!"OPEN"), (p!"Connection", p!"websockets.connection", p!"Connection"),
  (p!"Headers", p!"websockets.datastructures", p!"Headers"),
  (p!"HeadersLike", p!"websockets.datastructures", p!"HeadersLike"),
  (p!"MultipleValuesError", p!"websockets.datastructures", p!"MultipleValuesError"),
  (p!"InvalidHandshake", p!"websockets.exceptions", p!"InvalidHandshake"),
  (p!"InvalidHeader", p!"websockets.exceptions", p!"InvalidHeader"),
  (p!"InvalidHeaderValue", p!"websockets.exceptions", p!"InvalidHeaderValue"),
  (p!"InvalidStatusCode", p!"websockets.exceptions", p!"InvalidStatusCode"),
  (p!"InvalidUpgrade", p!"websockets.exceptions", p!"InvalidUpgrade"),
  (p!"NegotiationError", p!"websockets.exceptions", p!"NegotiationError"),
  (p!"ClientExtensionFactory", p!"websockets.extensions.base", p!"ClientExtensionFactory"),
  (p!"Extension", p!"websockets.extensions.base", p!"Extension"),
  (p!"build_authorization_basic", p!"websockets.headers", p!"build_authorization_basic"),
  (p!"build_extension", p!"websockets.headers", p!"build_extension"),
  (p!"build_subprotocol", p!"websockets.headers", p!"build_subprotocol"),
  (p!"parse_connection", p!"websockets.headers", p!"parse_connection"),
  (p!"parse_extension", p!"websockets.headers", p!"parse_extension"),
  (p!"parse_subprotocol", p!"websockets.headers", p!"parse_subprotocol"),
  (p!"parse_upgrade", p!"websockets.headers", p!"parse_upgrade"),
  (p!"USER_AGENT", p!"websockets.http", p!"USER_AGENT"), (p!"build_host", p!"websockets.http", p!"build_host"),
  (p!"Request", p!"websockets.http11", p!"Request"), (p!"Response", p!"websockets.http11", p!"Response"),
  (p!"lazy_import", p!"websockets.imports", p!"lazy_import"),
  (p!"ConnectionOption", p!"websockets.typing", p!"ConnectionOption"),
  (p!"ExtensionHeader", p!"websockets.typing", p!"ExtensionHeader"), (p!"Origin", p!"websockets.typing", p!"Origin"),
  (p!"Subprotocol", p!"websockets.typing", p!"Subprotocol"),
  (p!"UpgradeProtocol", p!"websockets.typing", p!"UpgradeProtocol"),
  (p!"parse_uri", p!"websockets.uri", p!"parse_uri"), (p!"accept_key", p!"websockets.utils", p!"accept_key"),
  (p!"generate_key", p!"websockets.utils", p!"generate_key"), (p!"__all__", p!"websockets.client", p!"__all__"),
  (p!"logger", p!"websockets.client", p!"logger"), (p!"ClientConnection", p!"websockets.client", p!"ClientConnection")]

/-- /repo/src/websockets/connection.py -/
def names_websockets_connection : List (PyStr × Obj) := [
  (p!"enum", p!"enum", p!""), (p!"logging", p!"logging", p!""), (p!"Generator", p!"typing", p!"Generator"),
  (p!"List", p!"typing", p!"List"), (p!"Optional", p!"typing", p!"Optional"), (p!"Union", p!"typing", p!"Union"),
  (p!"InvalidState", p!"websockets.exceptions", p!"InvalidState"),
  (p!"PayloadTooBig", p!"websockets.exceptions", p!"PayloadTooBig"),
  (p!"ProtocolError", p!"websockets.exceptions", p!"ProtocolError"),
  (p!"Extension", p!"websockets.extensions.base", p!"Extension"),
  (p!"OP_BINARY", p!"websockets.frames", p!"OP_BINARY"), (p!"OP_CLOSE", p!"websockets.frames", p!"OP_CLOSE"),
  (p!"OP_CONT", p!"websockets.frames", p!"OP_CONT"), (p!"OP_PING", p!"websockets.frames", p!"OP_PING"),
  (p!"OP_PONG", p!"websockets.frames", p!"OP_PONG"), (p!"OP_TEXT", p!"websockets.frames", p!"OP_TEXT"),
  (p!"Frame", p!"websockets.frames", p!"Frame"), (p!"parse_close", p!"websockets.frames", p!"parse_close"),
  (p!"serialize_close", p!"websockets.frames", p!"serialize_close"),
  (p!"Request", p!"websockets.http11", p!"Request"), (p!"Response", p!"websockets.http11", p!"Response"),
  (p!"StreamReader", p!"websockets.streams", p!"StreamReader"), (p!"Origin", p!"websockets.typing", p!"Origin"),
  (p!"Subprotocol", p!"websockets.typing", p!"Subprotocol"), (p!"__all__", p!"websockets.connection", p!"__all__"),
  (p!"logger", p!"websockets.connection", p!"logger"), (p!"Event", p!"websockets.connection", p!"Event"),
  (p!"Side", p!"websockets.connection", p!"Side"), (p!"SERVER", p!"websockets.connection", p!"SERVER"),
  (p!"CLIENT", p!"websockets.connection", p!"CLIENT"), (p!"State", p!"websockets.connection", p!"State"),
  (p!"CONNECTING", p!"websockets.connection", p!"CONNECTING"), (p!"OPEN", p!"websockets.connection", p!"OPEN"),
  (p!"CLOSING", p!"websockets.connection", p!"CLOSING"), (p!"CLOSED", p!"websockets.connection", p!"CLOSED"),
  (p!"SEND_EOF", p!"websockets.connection", p!"SEND_EOF"), (p!"Connection", p!"websockets.connection", p!"Connection")]

/-- /repo/src/websockets/datastructures.py -/
def names_websockets_datastructures : List (PyStr × Obj) := [
  (p!"Any", p!"typing", p!"Any"), (p!"Dict", p!"typing", p!"Dict"), (p!"Iterable", p!"typing", p!"Iterable"),
  (p!"Iterator", p!"typing", p!"Iterator"), (p!"List", p!"typing", p!"List"), (p!"Mapping", p!"typing", p!"Mapping"),
  (p!"MutableMapping", p!"typing", p!"MutableMapping"), (p!"Tuple", p!"typing", p!"Tuple"),
  (p!"Union", p!"typing", p!"Union"), (p!"__all__", p!"websockets.datastructures", p!"__all__"),
  (p!"MultipleValuesError", p!"websockets.datastructures", p!"MultipleValuesError"),
  (p!"Headers", p!"websockets.datastructures", p!"Headers"),
  (p!"HeadersLike", p!"websockets.datastructures", p!"HeadersLike")]

/-- /repo/src/websockets/exceptions.py -/
def names_websockets_exceptions : List (PyStr × Obj) := [
  (p!"http", p!"http", p!""), (p!"Optional", p!"typing", p!"Optional"),
  (p!"Headers", p!"websockets.datastructures", p!"Headers"),
  (p!"HeadersLike", p!"websockets.datastructures", p!"HeadersLike"),
  (p!"__all__", p!"websockets.exceptions", p!"__all__"),
  (p!"WebSocketException", p!"websockets.exceptions", p!"WebSocketException"),
  (p!"CLOSE_CODES", p!"websockets.exceptions", p!"CLOSE_CODES"),
  (p!"format_close", p!"websockets.exceptions", p!"format_close"),
  (p!"ConnectionClosed", p!"websockets.exceptions", p!"ConnectionClosed"),
  (p!"ConnectionClosedError", p!"websockets.exceptions", p!"ConnectionClosedError"),
  (p!"ConnectionClosedOK", p!"websockets.exceptions", p!"ConnectionClosedOK"),
  (p!"InvalidHandshake", p!"websockets.exceptions", p!"InvalidHandshake"),
  (p!"SecurityError", p!"websockets.exceptions", p!"SecurityError"),
  (p!"InvalidMessage", p!"websockets.exceptions", p!"InvalidMessage"),
  (p!"InvalidHeader", p!"websockets.exceptions", p!"InvalidHeader"),
  (p!"InvalidHeaderFormat", p!"websockets.exceptions", p!"InvalidHeaderFormat"),
  (p!"InvalidHeaderValue", p!"websockets.exceptions", p!"InvalidHeaderValue"),
  (p!"InvalidOrigin", p!"websockets.exceptions", p!"InvalidOrigin"),
  (p!"InvalidUpgrade", p!"websockets.exceptions", p!"InvalidUpgrade"),
  (p!"InvalidStatusCode", p!"websockets.exceptions", p!"InvalidStatusCode"),
  (p!"NegotiationError", p!"websockets.exceptions", p!"NegotiationError"),
  (p!"DuplicateParameter", p!"websockets.exceptions", p!"DuplicateParameter"),
  (p!"InvalidParameterName", p!"websockets.exceptions", p!"InvalidParameterName"),
  (p!"InvalidParameterValue", p!"websockets.exceptions", p!"InvalidParameterValue"),
  (p!"AbortHandshake", p!"websockets.exceptions", p!"AbortHandshake"),
  (p!"RedirectHandshake", p!"websockets.exceptions", p!"RedirectHandshake"),
  (p!"InvalidState", p!"websockets.exceptions", p!"InvalidState"),
  (p!"InvalidURI", p!"websockets.exceptions", p!"InvalidURI"),
  (p!"PayloadTooBig", p!"websockets.exceptions", p!"PayloadTooBig"),
  (p!"ProtocolError", p!"websockets.exceptions", p!"ProtocolError"),
  (p!"WebSocketProtocolError", p!"websockets.exceptions", p!"WebSocketProtocolError")]

/-- /repo/src/websockets/extensions/__init__.py -/
def names_websockets_extensions : List (PyStr × Obj) := [
]

/-- /repo/src/websockets/extensions/base.py -/
def names_websockets_extensions_base : List (PyStr × Obj) := [
  (p!"List", p!"typing", p!"List"), (p!"Optional", p!"typing", p!"Optional"),
  (p!"Sequence", p!"typing", p!"Sequence"), (p!"Tuple", p!"typing", p!"Tuple"),
  (p!"Frame", p!"websockets.frames", p!"Frame"), (p!"ExtensionName", p!"websockets.typing", p!"ExtensionName"),
  (p!"ExtensionParameter", p!"websockets.typing", p!"ExtensionParameter"),
  (p!"__all__", p!"websockets.extensions.base", p!"__all__"),
  (p!"Extension", p!"websockets.extensions.base", p!"Extension"),
  (p!"ClientExtensionFactory", p!"websockets.extensions.base", p!"ClientExtensionFactory"),
  (p!"ServerExtensionFactory", p!"websockets.extensions.base", p!"ServerExtensionFactory")]

/-- /repo/src/websockets/extensions/permessage_deflate.py -/
def names_websockets_extensions_permessage_deflate : List (PyStr × Obj) := [
  (p!"zlib", p!"zlib", p!""), (p!"Any", p!"typing", p!"Any"), (p!"Dict", p!"typing", p!"Dict"),
  (p!"List", p!"typing", p!"List"), (p!"Optional", p!"typing", p!"Optional"),
  (p!"Sequence", p!"typing", p!"Sequence"), (p!"Tuple", p!"typing", p!"Tuple"), (p!"Union", p!"typing", p!"Union"),
  (p!"DuplicateParameter", p!"websockets.exceptions", p!"DuplicateParameter"),
  (p!"InvalidParameterName", p!"websockets.exceptions", p!"InvalidParameterName"),
  (p!"InvalidParameterValue", p!"websockets.exceptions", p!"InvalidParameterValue"),
  (p!"NegotiationError", p!"websockets.exceptions", p!"NegotiationError"),
  (p!"PayloadTooBig", p!"websockets.exceptions", p!"PayloadTooBig"),
  (p!"CTRL_OPCODES", p!"websockets.frames", p!"CTRL_OPCODES"), (p!"OP_CONT", p!"websockets.frames", p!"OP_CONT"),
  (p!"Frame", p!"websockets.frames", p!"Frame"), (p!"ExtensionName", p!"websockets.typing", p!"ExtensionName"),
  (p!"ExtensionParameter", p!"websockets.typing", p!"ExtensionParameter"),
  (p!"ClientExtensionFactory", p!"websockets.extensions.base", p!"ClientExtensionFactory"),
  (p!"Extension", p!"websockets.extensions.base", p!"Extension"),
  (p!"ServerExtensionFactory", p!"websockets.extensions.base", p!"ServerExtensionFactory"),
  (p!"__all__", p!"websockets.extensions.permessage_deflate", p!"__all__"),
  (p!"_EMPTY_UNCOMPRESSED_BLOCK", p!"websockets.extensions.permessage_deflate", p!"_EMPTY_UNCOMPRESSED_BLOCK"),
  (p!"_MAX_WINDOW_BITS_VALUES", p!"websockets.extensions.permessage_deflate", p!"_MAX_WINDOW_BITS_VALUES"),
  (p!"PerMessageDeflate", p!"websockets.extensions.permessage_deflate", p!"PerMessageDeflate"),
  (p!"_build_parameters", p!"websockets.extensions.permessage_deflate", p!"_build_parameters"),
  (p!"_extract_parameters", p!"websockets.extensions.permessage_deflate", p!"_extract_parameters"),
  (p!"ClientPerMessageDeflateFactory", p!"websockets.extensions.permessage_deflate", p!"ClientPerMessageDeflateFactory"),
  (p!"enable_client_permessage_deflate", p!"websockets.extensions.permessage_deflate", p!"enable_client_permessage_deflate"),
  (p!"ServerPerMessageDeflateFactory", p!"websockets.extensions.permessage_deflate", p!"ServerPerMessageDeflateFactory"),
  (p!"enable_server_permessage_deflate", p!"websockets.extensions.permessage_deflate", p!"enable_server_permessage_deflate")]

/-- /repo/src/websockets/frames.py -/
def names_websockets_frames : List (PyStr × Obj) := [
  (p!"enum", p!"enum", p!""), (p!"io", p!"io", p!""), (p!"secrets", p!"secrets", p!""),
  (p!"struct", p!"struct", p!""), (p!"Callable", p!"typing", p!"Callable"),
  (p!"Generator", p!"typing", p!"Generator"), (p!"NamedTuple", p!"typing", p!"NamedTuple"),
  (p!"Optional", p!"typing", p!"Optional"), (p!"Sequence", p!"typing", p!"Sequence"),
  (p!"Tuple", p!"typing", p!"Tuple"), (p!"PayloadTooBig", p!"websockets.exceptions", p!"PayloadTooBig"),
  (p!"ProtocolError", p!"websockets.exceptions", p!"ProtocolError"), (p!"Data", p!"websockets.typing", p!"Data"),
  (p!"__all__", p!"websockets.frames", p!"__all__"), (p!"Opcode", p!"websockets.frames", p!"Opcode"),
  (p!"OP_CONT", p!"websockets.frames", p!"OP_CONT"), (p!"OP_TEXT", p!"websockets.frames", p!"OP_TEXT"),
  (p!"OP_BINARY", p!"websockets.frames", p!"OP_BINARY"), (p!"OP_CLOSE", p!"websockets.frames", p!"OP_CLOSE"),
  (p!"OP_PING", p!"websockets.frames", p!"OP_PING"), (p!"OP_PONG", p!"websockets.frames", p!"OP_PONG"),
  (p!"DATA_OPCODES", p!"websockets.frames", p!"DATA_OPCODES"),
  (p!"CTRL_OPCODES", p!"websockets.frames", p!"CTRL_OPCODES"),
  (p!"EXTERNAL_CLOSE_CODES", p!"websockets.frames", p!"EXTERNAL_CLOSE_CODES"),
  (p!"Frame", p!"websockets.frames", p!"Frame"), (p!"prepare_data", p!"websockets.frames", p!"prepare_data"),
  (p!"prepare_ctrl", p!"websockets.frames", p!"prepare_ctrl"),
  (p!"parse_close", p!"websockets.frames", p!"parse_close"),
  (p!"serialize_close", p!"websockets.frames", p!"serialize_close"),
  (p!"check_close", p!"websockets.frames", p!"check_close"), (p!"websockets", p!"websockets", p!"")]

/-- /repo/src/websockets/headers.py -/
def names_websockets_headers : List (PyStr × Obj) := [
  (p!"base64", p!"base64", p!""), (p!"binascii", p!"binascii", p!""), (p!"re", p!"re", p!""),
  (p!"Callable", p!"typing", p!"Callable"), (p!"List", p!"typing", p!"List"),
  (p!"Optional", p!"typing", p!"Optional"), (p!"Sequence", p!"typing", p!"Sequence"),
  (p!"Tuple", p!"typing", p!"Tuple"), (p!"TypeVar", p!"typing", p!"TypeVar"), (p!"cast", p!"typing", p!"cast"),
  (p!"InvalidHeaderFormat", p!"websockets.exceptions", p!"InvalidHeaderFormat"),
  (p!"InvalidHeaderValue", p!"websockets.exceptions", p!"InvalidHeaderValue"),
  (p!"ConnectionOption", p!"websockets.typing", p!"ConnectionOption"),
  (p!"ExtensionHeader", p!"websockets.typing", p!"ExtensionHeader"),
  (p!"ExtensionName", p!"websockets.typing", p!"ExtensionName"),
  (p!"ExtensionParameter", p!"websockets.typing", p!"ExtensionParameter"),
  (p!"Subprotocol", p!"websockets.typing", p!"Subprotocol"),
  (p!"UpgradeProtocol", p!"websockets.typing", p!"UpgradeProtocol"),
  (p!"__all__", p!"websockets.headers", p!"__all__"), (p!"T", p!"websockets.headers", p!"T"),
  (p!"peek_ahead", p!"websockets.headers", p!"peek_ahead"), (p!"_OWS_re", p!"websockets.headers", p!"_OWS_re"),
  (p!"parse_OWS", p!"websockets.headers", p!"parse_OWS"), (p!"_token_re", p!"websockets.headers", p!"_token_re"),
  (p!"parse_token", p!"websockets.headers", p!"parse_token"),
  (p!"_quoted_string_re", p!"websockets.headers", p!"_quoted_string_re"),
  (p!"_unquote_re", p!"websockets.headers", p!"_unquote_re"),
  (p!"parse_quoted_string", p!"websockets.headers", p!"parse_quoted_string"),
  (p!"_quotable_re", p!"websockets.headers", p!"_quotable_re"),
  (p!"_quote_re", p!"websockets.headers", p!"_quote_re"),
  (p!"build_quoted_string", p!"websockets.headers", p!"build_quoted_string"),
  (p!"parse_list", p!"websockets.headers", p!"parse_list"),
  (p!"parse_connection_option", p!"websockets.headers", p!"parse_connection_option"),
  (p!"parse_connection", p!"websockets.headers", p!"parse_connection"),
  (p!"_protocol_re", p!"websockets.headers", p!"_protocol_re"),
  (p!"parse_upgrade_protocol", p!"websockets.headers", p!"parse_upgrade_protocol"),
  (p!"parse_upgrade", p!"websockets.headers", p!"parse_upgrade"),
  (p!"parse_extension_item_param", p!"websockets.headers", p!"parse_extension_item_param"),
  (p!"parse_extension_item", p!"websockets.headers", p!"parse_extension_item"),
  (p!"parse_extension", p!"websockets.headers", p!"parse_extension"),
  (p!"parse_extension_list", p!"websockets.headers", p!"parse_extension_list"),
  (p!"build_extension_item", p!"websockets.headers", p!"build_extension_item"),
  (p!"build_extension", p!"websockets.headers", p!"build_extension"),
  (p!"build_extension_list", p!"websockets.headers", p!"build_extension_list"),
  (p!"parse_subprotocol_item", p!"websockets.headers", p!"parse_subprotocol_item"),
  (p!"parse_subprotocol", p!"websockets.headers", p!"parse_subprotocol"),
  (p!"parse_subprotocol_list", p!"websockets.headers", p!"parse_subprotocol_list"),
  (p!"build_subprotocol", p!"websockets.headers", p!"build_subprotocol"),
  (p!"build_subprotocol_list", p!"websockets.headers", p!"build_subprotocol_list"),
  (p!"build_www_authenticate_basic", p!"websockets.headers", p!"build_www_authenticate_basic"),
  (p!"_token68_re", p!"websockets.headers", p!"_token68_re"),
  (p!"parse_token68", p!"websockets.headers", p!"parse_token68"),
  (p!"parse_end", p!"websockets.headers", p!"parse_end"),
  (p!"parse_authorization_basic", p!"websockets.headers", p!"parse_authorization_basic"),
  (p!"build_authorization_basic", p!"websockets.headers", p!"build_authorization_basic")]

/-- /repo/src/websockets/http.py -/
def names_websockets_http : List (PyStr × Obj) := [
  (p!"ipaddress", p!"ipaddress", p!""), (p!"sys", p!"sys", p!""),
  (p!"lazy_import", p!"websockets.imports", p!"lazy_import"),
  (p!"websockets_version", p!"websockets.version", p!"version"), (p!"__all__", p!"websockets.http", p!"__all__"),
  (p!"PYTHON_VERSION", p!"websockets.http", p!"PYTHON_VERSION"),
  (p!"USER_AGENT", p!"websockets.http", p!"USER_AGENT"), (p!"build_host", p!"websockets.http", p!"build_host")]

/-- /repo/src/websockets/http11.py -/
def names_websockets_http11 : List (PyStr × Obj) := [
  (p!"re", p!"re", p!""), (p!"Callable", p!"typing", p!"Callable"), (p!"Generator", p!"typing", p!"Generator"),
  (p!"NamedTuple", p!"typing", p!"NamedTuple"), (p!"Optional", p!"typing", p!"Optional"),
  (p!"Headers", p!"websockets.datastructures", p!"Headers"),
  (p!"SecurityError", p!"websockets.exceptions", p!"SecurityError"),
  (p!"MAX_HEADERS", p!"websockets.http11", p!"MAX_HEADERS"), (p!"MAX_LINE", p!"websockets.http11", p!"MAX_LINE"),
  (p!"d", p!"websockets.http11", p!"d"), (p!"_token_re", p!"websockets.http11", p!"_token_re"),
  (p!"_value_re", p!"websockets.http11", p!"_value_re"), (p!"Request", p!"websockets.http11", p!"Request"),
  (p!"Response", p!"websockets.http11", p!"Response"), (p!"parse_headers", p!"websockets.http11", p!"parse_headers"),
  (p!"parse_line", p!"websockets.http11", p!"parse_line")]

/-- /repo/src/websockets/imports.py -/
def names_websockets_imports : List (PyStr × Obj) := [
  (p!"sys", p!"sys", p!""), (p!"warnings", p!"warnings", p!""), (p!"Any", p!"typing", p!"Any"),
  (p!"Dict", p!"typing", p!"Dict"), (p!"Iterable", p!"typing", p!"Iterable"),
  (p!"Optional", p!"typing", p!"Optional"), (p!"__all__", p!"websockets.imports", p!"__all__"),
  (p!"import_name", p!"websockets.imports", p!"import_name"),
  (p!"lazy_import", p!"websockets.imports", p!"lazy_import")]

/-- /repo/src/websockets/legacy/__init__.py -/
def names_websockets_legacy : List (PyStr × Obj) := [
]

/-- /repo/src/websockets/legacy/auth.py -/
def names_websockets_legacy_auth : List (PyStr × Obj) := [
  (p!"functools", p!"functools", p!""), (p!"http", p!"http", p!""), (p!"Any", p!"typing", p!"Any"),
  (p!"Awaitable", p!"typing", p!"Awaitable"), (p!"Callable", p!"typing", p!"Callable"),
  (p!"Iterable", p!"typing", p!"Iterable"), (p!"Optional", p!"typing", p!"Optional"),
  (p!"Tuple", p!"typing", p!"Tuple"), (p!"Union", p!"typing", p!"Union"), (p!"cast", p!"typing", p!"cast"),
  (p!"Headers", p!"websockets.datastructures", p!"Headers"),
  (p!"InvalidHeader", p!"websockets.exceptions", p!"InvalidHeader"),
  (p!"build_www_authenticate_basic", p!"websockets.headers", p!"build_www_authenticate_basic"),
  (p!"parse_authorization_basic", p!"websockets.headers", p!"parse_authorization_basic"),
  (p!"HTTPResponse", p!"websockets.legacy.server", p!"HTTPResponse"),
  (p!"WebSocketServerProtocol", p!"websockets.legacy.server", p!"WebSocketServerProtocol"),
  (p!"__all__", p!"websockets.legacy.auth", p!"__all__"),
  (p!"Credentials", p!"websockets.legacy.auth", p!"Credentials"),
  (p!"is_credentials", p!"websockets.legacy.auth", p!"is_credentials"),
  (p!"BasicAuthWebSocketServerProtocol", p!"websockets.legacy.auth", p!"BasicAuthWebSocketServerProtocol"),
  (p!"basic_auth_protocol_factory", p!"websockets.legacy.auth", p!"basic_auth_protocol_factory")]

/-- /repo/src/websockets/legacy/client.py -/
def names_websockets_legacy_client : List (PyStr × Obj) := [
  (p!"asyncio", p!"asyncio", p!""), (p!"collections", p!"collections", p!""), (p!"functools", p!"functools", p!""),
  (p!"logging", p!"logging", p!""), (p!"warnings", p!"warnings", p!""),
  (p!"TracebackType", p!"types", p!"TracebackType"), (p!"Any", p!"typing", p!"Any"),
  (p!"Callable", p!"typing", p!"Callable"), (p!"Generator", p!"typing", p!"Generator"),
  (p!"List", p!"typing", p!"List"), (p!"Optional", p!"typing", p!"Optional"),
  (p!"Sequence", p!"typing", p!"Sequence"), (p!"Tuple", p!"typing", p!"Tuple"), (p!"Type", p!"typing", p!"Type"),
  (p!"cast", p!"typing", p!"cast"), (p!"Headers", p!"websockets.datastructures", p!"Headers"),
  (p!"HeadersLike", p!"websockets.datastructures", p!"HeadersLike"),
  (p!"InvalidHandshake", p!"websockets.exceptions", p!"InvalidHandshake"),
  (p!"InvalidHeader", p!"websockets.exceptions", p!"InvalidHeader"),
  (p!"InvalidMessage", p!"websockets.exceptions", p!"InvalidMessage"),
  (p!"InvalidStatusCode", p!"websockets.exceptions", p!"InvalidStatusCode"),
  (p!"NegotiationError", p!"websockets.exceptions", p!"NegotiationError"),
  (p!"RedirectHandshake", p!"websockets.exceptions", p!"RedirectHandshake"),
  (p!"SecurityError", p!"websockets.exceptions", p!"SecurityError"),
  (p!"ClientExtensionFactory", p!"websockets.extensions.base", p!"ClientExtensionFactory"),
  (p!"Extension", p!"websockets.extensions.base", p!"Extension"),
  (p!"enable_client_permessage_deflate", p!"websockets.extensions.permessage_deflate", p!"enable_client_permessage_deflate"),
  (p!"build_authorization_basic", p!"websockets.headers", p!"build_authorization_basic"),
  (p!"build_extension", p!"websockets.headers", p!"build_extension"),
  (p!"build_subprotocol", p!"websockets.headers", p!"build_subprotocol"),
  (p!"parse_extension", p!"websockets.headers", p!"parse_extension"),
  (p!"parse_subprotocol", p!"websockets.headers", p!"parse_subprotocol"),
  (p!"USER_AGENT", p!"websockets.http", p!"USER_AGENT"), (p!"build_host", p!"websockets.http", p!"build_host"),
  (p!"ExtensionHeader", p!"websockets.typing", p!"ExtensionHeader"), (p!"Origin", p!"websockets.typing", p!"Origin"),
  (p!"Subprotocol", p!"websockets.typing", p!"Subprotocol"),
  (p!"WebSocketURI", p!"websockets.uri", p!"WebSocketURI"), (p!"parse_uri", p!"websockets.uri", p!"parse_uri"),
  (p!"build_request", p!"websockets.legacy.handshake", p!"build_request"),
  (p!"check_response", p!"websockets.legacy.handshake", p!"check_response"),
  (p!"read_response", p!"websockets.legacy.http", p!"read_response"),
  (p!"WebSocketCommonProtocol", p!"websockets.legacy.protocol", p!"WebSocketCommonProtocol"),
  (p!"__all__", p!"websockets.legacy.client", p!"__all__"), (p!"logger", p!"websockets.legacy.client", p!"logger"),
  (p!"WebSocketClientProtocol", p!"websockets.legacy.client", p!"WebSocketClientProtocol"),
  (p!"Connect", p!"websockets.legacy.client", p!"Connect"), (p!"connect", p!"websockets.legacy.client", p!"connect"),
  (p!"unix_connect", p!"websockets.legacy.client", p!"unix_connect")]

/-- /repo/src/websockets/legacy/framing.py -/
def names_websockets_legacy_framing : List (PyStr × Obj) := [
  (p!"struct", p!"struct", p!""), (p!"Any", p!"typing", p!"Any"), (p!"Awaitable", p!"typing", p!"Awaitable"),
  (p!"Callable", p!"typing", p!"Callable"), (p!"Optional", p!"typing", p!"Optional"),
  (p!"Sequence", p!"typing", p!"Sequence"), (p!"PayloadTooBig", p!"websockets.exceptions", p!"PayloadTooBig"),
  (p!"ProtocolError", p!"websockets.exceptions", p!"ProtocolError"),
  (p!"NewFrame", p!"websockets.frames", p!"Frame"), (p!"Opcode", p!"websockets.frames", p!"Opcode"),
  (p!"Frame", p!"websockets.legacy.framing", p!"Frame"), (p!"parse_close", p!"websockets.frames", p!"parse_close"),
  (p!"encode_data", p!"websockets.frames", p!"prepare_ctrl"),
  (p!"prepare_data", p!"websockets.frames", p!"prepare_data"),
  (p!"serialize_close", p!"websockets.frames", p!"serialize_close"), (p!"websockets", p!"websockets", p!"")]

/-- /repo/src/websockets/legacy/handshake.py -/
def names_websockets_legacy_handshake : List (PyStr × Obj) := [
  (p!"base64", p!"base64", p!""), (p!"binascii", p!"binascii", p!""), (p!"List", p!"typing", p!"List"),
  (p!"Headers", p!"websockets.datastructures", p!"Headers"),
  (p!"MultipleValuesError", p!"websockets.datastructures", p!"MultipleValuesError"),
  (p!"InvalidHeader", p!"websockets.exceptions", p!"InvalidHeader"),
  (p!"InvalidHeaderValue", p!"websockets.exceptions", p!"InvalidHeaderValue"),
  (p!"InvalidUpgrade", p!"websockets.exceptions", p!"InvalidUpgrade"),
  (p!"parse_connection", p!"websockets.headers", p!"parse_connection"),
  (p!"parse_upgrade", p!"websockets.headers", p!"parse_upgrade"),
  (p!"ConnectionOption", p!"websockets.typing", p!"ConnectionOption"),
  (p!"UpgradeProtocol", p!"websockets.typing", p!"UpgradeProtocol"),
  (p!"accept", p!"websockets.utils", p!"accept_key"), (p!"generate_key", p!"websockets.utils", p!"generate_key"),
  (p!"__all__", p!"websockets.legacy.handshake", p!"__all__"),
  (p!"build_request", p!"websockets.legacy.handshake", p!"build_request"),
  (p!"check_request", p!"websockets.legacy.handshake", p!"check_request"),
  (p!"build_response", p!"websockets.legacy.handshake", p!"build_response"),
  (p!"check_response", p!"websockets.legacy.handshake", p!"check_response")]

/-- /repo/src/websockets/legacy/http.py -/
def names_websockets_legacy_http : List (PyStr × Obj) := [
  (p!"asyncio", p!"asyncio", p!""), (p!"re", p!"re", p!""), (p!"Tuple", p!"typing", p!"Tuple"),
  (p!"Headers", p!"websockets.datastructures", p!"Headers"),
  (p!"SecurityError", p!"websockets.exceptions", p!"SecurityError"),
  (p!"__all__", p!"websockets.legacy.http", p!"__all__"),
  (p!"MAX_HEADERS", p!"websockets.legacy.http", p!"MAX_HEADERS"),
  (p!"MAX_LINE", p!"websockets.legacy.http", p!"MAX_LINE"), (p!"d", p!"websockets.legacy.http", p!"d"),
  (p!"_token_re", p!"websockets.legacy.http", p!"_token_re"),
  (p!"_value_re", p!"websockets.legacy.http", p!"_value_re"),
  (p!"read_request", p!"websockets.legacy.http", p!"read_request"),
  (p!"read_response", p!"websockets.legacy.http", p!"read_response"),
  (p!"read_headers", p!"websockets.legacy.http", p!"read_headers"),
  (p!"read_line", p!"websockets.legacy.http", p!"read_line")]

/-- /repo/src/websockets/legacy/protocol.py -/
def names_websockets_legacy_protocol : List (PyStr × Obj) := [
  (p!"asyncio", p!"asyncio", p!""), (p!"codecs", p!"codecs", p!""), (p!"collections", p!"collections", p!""),
  (p!"enum", p!"enum", p!""), (p!"logging", p!"logging", p!""), (p!"random", p!"random", p!""),
  (p!"struct", p!"struct", p!""), (p!"sys", p!"sys", p!""), (p!"warnings", p!"warnings", p!""),
  (p!"Any", p!"typing", p!"Any"), (p!"AsyncIterable", p!"typing", p!"AsyncIterable"),
  (p!"AsyncIterator", p!"typing", p!"AsyncIterator"), (p!"Awaitable", p!"typing", p!"Awaitable"),
  (p!"Deque", p!"typing", p!"Deque"), (p!"Dict", p!"typing", p!"Dict"), (p!"Iterable", p!"typing", p!"Iterable"),
  (p!"List", p!"typing", p!"List"), (p!"Mapping", p!"typing", p!"Mapping"), (p!"Optional", p!"typing", p!"Optional"),
  (p!"Union", p!"typing", p!"Union"), (p!"cast", p!"typing", p!"cast"),
  (p!"Headers", p!"websockets.datastructures", p!"Headers"),
  (p!"ConnectionClosed", p!"websockets.exceptions", p!"ConnectionClosed"),
  (p!"ConnectionClosedError", p!"websockets.exceptions", p!"ConnectionClosedError"),
  (p!"ConnectionClosedOK", p!"websockets.exceptions", p!"ConnectionClosedOK"),
  (p!"InvalidState", p!"websockets.exceptions", p!"InvalidState"),
  (p!"PayloadTooBig", p!"websockets.exceptions", p!"PayloadTooBig"),
  (p!"ProtocolError", p!"websockets.exceptions", p!"ProtocolError"),
  (p!"Extension", p!"websockets.extensions.base", p!"Extension"),
  (p!"OP_BINARY", p!"websockets.frames", p!"OP_BINARY"), (p!"OP_CLOSE", p!"websockets.frames", p!"OP_CLOSE"),
  (p!"OP_CONT", p!"websockets.frames", p!"OP_CONT"), (p!"OP_PING", p!"websockets.frames", p!"OP_PING"),
  (p!"OP_PONG", p!"websockets.frames", p!"OP_PONG"), (p!"OP_TEXT", p!"websockets.frames", p!"OP_TEXT"),
  (p!"Opcode", p!"websockets.frames", p!"Opcode"), (p!"parse_close", p!"websockets.frames", p!"parse_close"),
  (p!"prepare_ctrl", p!"websockets.frames", p!"prepare_ctrl"),
  (p!"prepare_data", p!"websockets.frames", p!"prepare_data"),
  (p!"serialize_close", p!"websockets.frames", p!"serialize_close"), (p!"Data", p!"websockets.typing", p!"Data"),
  (p!"Subprotocol", p!"websockets.typing", p!"Subprotocol"), (p!"Frame", p!"websockets.legacy.framing", p!"Frame"),
  (p!"__all__", p!"websockets.legacy.protocol", p!"__all__"),
  (p!"logger", p!"websockets.legacy.protocol", p!"logger"), (p!"State", p!"websockets.legacy.protocol", p!"State"),
  (p!"WebSocketCommonProtocol", p!"websockets.legacy.protocol", p!"WebSocketCommonProtocol")]

/-- /repo/src/websockets/legacy/server.py -/
def names_websockets_legacy_server : List (PyStr × Obj) := [
  (p!"asyncio", p!"asyncio", p!""), (p!"collections", p!"collections", p!""), (p!"email", p!"email", p!""),
  (p!"functools", p!"functools", p!""), (p!"http", p!"http", p!""), (p!"logging", p!"logging", p!""),
  (p!"socket", p!"socket", p!""), (p!"sys", p!"sys", p!""), (p!"warnings", p!"warnings", p!""),
  (p!"TracebackType", p!"types", p!"TracebackType"), (p!"Any", p!"typing", p!"Any"),
  (p!"Awaitable", p!"typing", p!"Awaitable"), (p!"Callable", p!"typing", p!"Callable"),
  (p!"Generator", p!"typing", p!"Generator"), (p!"List", p!"typing", p!"List"),
  (p!"Optional", p!"typing", p!"Optional"), (p!"Sequence", p!"typing", p!"Sequence"), (p!"Set", p!"typing", p!"Set"),
  (p!"Tuple", p!"typing", p!"Tuple"), (p!"Type", p!"typing", p!"Type"), (p!"Union", p!"typing", p!"Union"),
  (p!"cast", p!"typing", p!"cast"), (p!"Headers", p!"websockets.datastructures", p!"Headers"),
  (p!"HeadersLike", p!"websockets.datastructures", p!"HeadersLike"),
  (p!"MultipleValuesError", p!"websockets.datastructures", p!"MultipleValuesError"),
  (p!"AbortHandshake", p!"websockets.exceptions", p!"AbortHandshake"),
  (p!"InvalidHandshake", p!"websockets.exceptions", p!"InvalidHandshake"),
  (p!"InvalidHeader", p!"websockets.exceptions", p!"InvalidHeader"),
  (p!"InvalidMessage", p!"websockets.exceptions", p!"InvalidMessage"),
  (p!"InvalidOrigin", p!"websockets.exceptions", p!"InvalidOrigin"),
  (p!"InvalidUpgrade", p!"websockets.exceptions", p!"InvalidUpgrade"),
  (p!"NegotiationError", p!"websockets.exceptions", p!"NegotiationError"),
  (p!"Extension", p!"websockets.extensions.base", p!"Extension"),
  (p!"ServerExtensionFactory", p!"websockets.extensions.base", p!"ServerExtensionFactory"),
  (p!"enable_server_permessage_deflate", p!"websockets.extensions.permessage_deflate", p!"enable_server_permessage_deflate"),
  (p!"build_extension", p!"websockets.headers", p!"build_extension"),
  (p!"parse_extension", p!"websockets.headers", p!"parse_extension"),
  (p!"parse_subprotocol", p!"websockets.headers", p!"parse_subprotocol"),
  (p!"USER_AGENT", p!"websockets.http", p!"USER_AGENT"),
  (p!"ExtensionHeader", p!"websockets.typing", p!"ExtensionHeader"), (p!"Origin", p!"websockets.typing", p!"Origin"),
  (p!"Subprotocol", p!"websockets.typing", p!"Subprotocol"),
  (p!"build_response", p!"websockets.legacy.handshake", p!"build_response"),
  (p!"check_request", p!"websockets.legacy.handshake", p!"check_request"),
  (p!"read_request", p!"websockets.legacy.http", p!"read_request"),
  (p!"WebSocketCommonProtocol", p!"websockets.legacy.protocol", p!"WebSocketCommonProtocol"),
  (p!"__all__", p!"websockets.legacy.server", p!"__all__"), (p!"logger", p!"websockets.legacy.server", p!"logger"),
  (p!"HeadersLikeOrCallable", p!"websockets.legacy.server", p!"HeadersLikeOrCallable"),
  (p!"HTTPResponse", p!"websockets.legacy.server", p!"HTTPResponse"),
  (p!"WebSocketServerProtocol", p!"websockets.legacy.server", p!"WebSocketServerProtocol"),
  (p!"WebSocketServer", p!"websockets.legacy.server", p!"WebSocketServer"),
  (p!"Serve", p!"websockets.legacy.server", p!"Serve"), (p!"serve", p!"websockets.legacy.server", p!"serve"),
  (p!"unix_serve", p!"websockets.legacy.server", p!"unix_serve")]

/-- /repo/src/websockets/server.py -/
def names_websockets_server : List (PyStr × Obj) := [
  (p!"base64", p!"base64", p!""), (p!"binascii", p!"binascii", p!""), (p!"collections", p!"collections", p!""),
  (p!"email", p!"email", p!""), (p!"http", p!"http", p!""), (p!"logging", p!"logging", p!""),
  (p!"Callable", p!"typing", p!"Callable"), (p!"Generator", p!"typing", p!"Generator"),
  (p!"List", p!"typing", p!"List"), (p!"Optional", p!"typing", p!"Optional"),
  (p!"Sequence", p!"typing", p!"Sequence"), (p!"Tuple", p!"typing", p!"Tuple"), (p!"Union", p!"typing", p!"Union"),
  (p!"cast", p!"typing", p!"cast"), (p!"CONNECTING", p!"websockets.connection", p!"CONNECTING"),
  (p!"OPEN", p!"websockets.connection", p!"OPEN"), (p!"SERVER", p!"websockets.connection", p!"SERVER"),
  (p!"Connection", p!"websockets.connection", p!"Connection"),
  (p!"Headers", p!"websockets.datastructures", p!"Headers"),
  (p!"HeadersLike", p!"websockets.datastructures", p!"HeadersLike"),
  (p!"MultipleValuesError", p!"websockets.datastructures", p!"MultipleValuesError"),
  (p!"InvalidHandshake", p!"websockets.exceptions", p!"InvalidHandshake"),
  (p!"InvalidHeader", p!"websockets.exceptions", p!"InvalidHeader"),
  (p!"InvalidHeaderValue", p!"websockets.exceptions", p!"InvalidHeaderValue"),
  (p!"InvalidOrigin", p!"websockets.exceptions", p!"InvalidOrigin"),
  (p!"InvalidUpgrade", p!"websockets.exceptions", p!"InvalidUpgrade"),
  (p!"NegotiationError", p!"websockets.exceptions", p!"NegotiationError"),
  (p!"Extension", p!"websockets.extensions.base", p!"Extension"),
  (p!"ServerExtensionFactory", p!"websockets.extensions.base", p!"ServerExtensionFactory"),
  (p!"build_extension", p!"websockets.headers", p!"build_extension"),
  (p!"parse_connection", p!"websockets.headers", p!"parse_connection"),
  (p!"parse_extension", p!"websockets.headers", p!"parse_extension"),
  (p!"parse_subprotocol", p!"websockets.headers", p!"parse_subprotocol"),
  (p!"parse_upgrade", p!"websockets.headers", p!"parse_upgrade"),
  (p!"USER_AGENT", p!"websockets.http", p!"USER_AGENT"), (p!"Request", p!"websockets.http11", p!"Request"),
  (p!"Response", p!"websockets.http11", p!"Response"), (p!"lazy_import", p!"websockets.imports", p!"lazy_import"),
  (p!"ConnectionOption", p!"websockets.typing", p!"ConnectionOption"),
  (p!"ExtensionHeader", p!"websockets.typing", p!"ExtensionHeader"), (p!"Origin", p!"websockets.typing", p!"Origin"),
  (p!"Subprotocol", p!"websockets.typing", p!"Subprotocol"),
  (p!"UpgradeProtocol", p!"websockets.typing", p!"UpgradeProtocol"),
  (p!"accept_key", p!"websockets.utils", p!"accept_key"), (p!"__all__", p!"websockets.server", p!"__all__"),
  (p!"logger", p!"websockets.server", p!"logger"),
  (p!"HeadersLikeOrCallable", p!"websockets.server", p!"HeadersLikeOrCallable"),
  (p!"ServerConnection", p!"websockets.server", p!"ServerConnection")]

/-- /repo/src/websockets/streams.py -/
def names_websockets_streams : List (PyStr × Obj) := [
  (p!"Generator", p!"typing", p!"Generator"), (p!"StreamReader", p!"websockets.streams", p!"StreamReader")]

/-- /repo/src/websockets/typing.py -/
def names_websockets_typing : List (PyStr × Obj) := [
  (p!"List", p!"typing", p!"List"), (p!"NewType", p!"typing", p!"NewType"), (p!"Optional", p!"typing", p!"Optional"),
  (p!"Tuple", p!"typing", p!"Tuple"), (p!"Union", p!"typing", p!"Union"),
  (p!"__all__", p!"websockets.typing", p!"__all__"), (p!"Data", p!"websockets.typing", p!"Data"),
  (p!"Data__doc__", p!"websockets.typing", p!"Data__doc__"), (p!"Origin", p!"websockets.typing", p!"Origin"),
  (p!"ExtensionName", p!"websockets.typing", p!"ExtensionName"),
  (p!"ExtensionParameter", p!"websockets.typing", p!"ExtensionParameter"),
  (p!"ExtensionParameter__doc__", p!"websockets.typing", p!"ExtensionParameter__doc__"),
  (p!"ExtensionHeader", p!"websockets.typing", p!"ExtensionHeader"),
  (p!"ExtensionHeader__doc__", p!"websockets.typing", p!"ExtensionHeader__doc__"),
  (p!"Subprotocol", p!"websockets.typing", p!"Subprotocol"),
  (p!"ConnectionOption", p!"websockets.typing", p!"ConnectionOption"),
  (p!"UpgradeProtocol", p!"websockets.typing", p!"UpgradeProtocol")]

/-- /repo/src/websockets/uri.py -/
def names_websockets_uri : List (PyStr × Obj) := [
  (p!"urllib", p!"urllib", p!""), (p!"NamedTuple", p!"typing", p!"NamedTuple"),
  (p!"Optional", p!"typing", p!"Optional"), (p!"Tuple", p!"typing", p!"Tuple"),
  (p!"InvalidURI", p!"websockets.exceptions", p!"InvalidURI"), (p!"__all__", p!"websockets.uri", p!"__all__"),
  (p!"WebSocketURI", p!"websockets.uri", p!"WebSocketURI"), (p!"DELIMS", p!"websockets.uri", p!"DELIMS"),
  (p!"parse_uri", p!"websockets.uri", p!"parse_uri")]

/-- /repo/src/websockets/utils.py -/
def names_websockets_utils : List (PyStr × Obj) := [
  (p!"base64", p!"base64", p!""), (p!"hashlib", p!"hashlib", p!""), (p!"itertools", p!"itertools", p!""),
  (p!"secrets", p!"secrets", p!""), (p!"__all__", p!"websockets.utils", p!"__all__"),
  (p!"GUID", p!"websockets.utils", p!"GUID"), (p!"generate_key", p!"websockets.utils", p!"generate_key"),
  (p!"accept_key", p!"websockets.utils", p!"accept_key"), (p!"apply_mask", p!"websockets.utils", p!"apply_mask")]

/-- /repo/src/websockets/version.py -/
def names_websockets_version : List (PyStr × Obj) := [
  (p!"version", p!"websockets.version", p!"version")]

/-- The modules: name, is it a package?, names (all files of /repo/src/websockets, top level) -/
def modules : List (PyStr × Bool × List (PyStr × Obj)) := [
  (p!"websockets", true, names_websockets), (p!"websockets.client", false, names_websockets_client),
  (p!"websockets.connection", false, names_websockets_connection),
  (p!"websockets.datastructures", false, names_websockets_datastructures),
  (p!"websockets.exceptions", false, names_websockets_exceptions),
  (p!"websockets.extensions", true, names_websockets_extensions),
  (p!"websockets.extensions.base", false, names_websockets_extensions_base),
  (p!"websockets.extensions.permessage_deflate", false, names_websockets_extensions_permessage_deflate),
  (p!"websockets.frames", false, names_websockets_frames), (p!"websockets.headers", false, names_websockets_headers),
  (p!"websockets.http", false, names_websockets_http), (p!"websockets.http11", false, names_websockets_http11),
  (p!"websockets.imports", false, names_websockets_imports), (p!"websockets.legacy", true, names_websockets_legacy),
  (p!"websockets.legacy.auth", false, names_websockets_legacy_auth),
  (p!"websockets.legacy.client", false, names_websockets_legacy_client),
  (p!"websockets.legacy.framing", false, names_websockets_legacy_framing),
  (p!"websockets.legacy.handshake", false, names_websockets_legacy_handshake),
  (p!"websockets.legacy.http", false, names_websockets_legacy_http),
  (p!"websockets.legacy.protocol", false, names_websockets_legacy_protocol),
  (p!"websockets.legacy.server", false, names_websockets_legacy_server),
  (p!"websockets.server", false, names_websockets_server), (p!"websockets.streams", false, names_websockets_streams),
  (p!"websockets.typing", false, names_websockets_typing), (p!"websockets.uri", false, names_websockets_uri),
  (p!"websockets.utils", false, names_websockets_utils), (p!"websockets.version", false, names_websockets_version)]

/-- The variables that Python defines in all modules (not in /repo). -/
def dunders (name : PyStr) : List (PyStr × Obj) := [
  p!"__name__", p!"__doc__", p!"__package__", p!"__loader__", p!"__spec__", p!"__file__", p!"__cached__",
  p!"__builtins__"].map fun n => (n, name, n)

/-- /repo/src/websockets/__init__.py 51-106: the call to `lazy_import` -/
def call_websockets : Call Obj where
  name := p!"websockets"
  package := p!"websockets"
  vars := dunders p!"websockets" ++ [
    (p!"lazy_import", p!"websockets.imports", p!"lazy_import"),
    (p!"__version__", p!"websockets.version", p!"version"), (p!"__all__", p!"websockets", p!"__all__"),
    (p!"imports", p!"websockets.imports", p!""), (p!"version", p!"websockets.version", p!""),
    (p!"__path__", p!"websockets", p!"__path__")]
  aliases := [
    (p!"auth", p!".legacy"), (p!"basic_auth_protocol_factory", p!".legacy.auth"),
    (p!"BasicAuthWebSocketServerProtocol", p!".legacy.auth"), (p!"ClientConnection", p!".client"),
    (p!"connect", p!".legacy.client"), (p!"unix_connect", p!".legacy.client"),
    (p!"WebSocketClientProtocol", p!".legacy.client"), (p!"Headers", p!".datastructures"),
    (p!"MultipleValuesError", p!".datastructures"), (p!"WebSocketException", p!".exceptions"),
    (p!"ConnectionClosed", p!".exceptions"), (p!"ConnectionClosedError", p!".exceptions"),
    (p!"ConnectionClosedOK", p!".exceptions"), (p!"InvalidHandshake", p!".exceptions"),
    (p!"SecurityError", p!".exceptions"), (p!"InvalidMessage", p!".exceptions"),
    (p!"InvalidHeader", p!".exceptions"), (p!"InvalidHeaderFormat", p!".exceptions"),
    (p!"InvalidHeaderValue", p!".exceptions"), (p!"InvalidOrigin", p!".exceptions"),
    (p!"InvalidUpgrade", p!".exceptions"), (p!"InvalidStatusCode", p!".exceptions"),
    (p!"NegotiationError", p!".exceptions"), (p!"DuplicateParameter", p!".exceptions"),
    (p!"InvalidParameterName", p!".exceptions"), (p!"InvalidParameterValue", p!".exceptions"),
    (p!"AbortHandshake", p!".exceptions"), (p!"RedirectHandshake", p!".exceptions"),
    (p!"InvalidState", p!".exceptions"), (p!"InvalidURI", p!".exceptions"), (p!"PayloadTooBig", p!".exceptions"),
    (p!"ProtocolError", p!".exceptions"), (p!"WebSocketProtocolError", p!".exceptions"), (p!"protocol", p!".legacy"),
    (p!"WebSocketCommonProtocol", p!".legacy.protocol"), (p!"ServerConnection", p!".server"),
    (p!"serve", p!".legacy.server"), (p!"unix_serve", p!".legacy.server"),
    (p!"WebSocketServerProtocol", p!".legacy.server"), (p!"WebSocketServer", p!".legacy.server"),
    (p!"Data", p!".typing"), (p!"Origin", p!".typing"), (p!"ExtensionHeader", p!".typing"),
    (p!"ExtensionParameter", p!".typing"), (p!"Subprotocol", p!".typing"), (p!"parse_uri", p!".uri"),
    (p!"WebSocketURI", p!".uri")]
  deprecated := [
    (p!"framing", p!".legacy"), (p!"handshake", p!".legacy")]

/-- /repo/src/websockets/client.py 39-46: the call to `lazy_import` -/
def call_websockets_client : Call Obj where
  name := p!"websockets.client"
  package := p!"websockets"
  vars := dunders p!"websockets.client" ++ [
    (p!"collections", p!"collections", p!""), (p!"logging", p!"logging", p!""),
    (p!"Generator", p!"typing", p!"Generator"), (p!"List", p!"typing", p!"List"),
    (p!"Optional", p!"typing", p!"Optional"), (p!"Sequence", p!"typing", p!"Sequence"),
    (p!"CLIENT", p!"websockets.connection", p!"CLIENT"), (p!"CONNECTING", p!"websockets.connection", p!"CONNECTING"),
    (p!"OPEN", p!"websockets.connection", p!"OPEN"), (p!"Connection", p!"websockets.connection", p!"Connection"),
    (p!"Headers", p!"websockets.datastructures", p!"Headers"),
    (p!"HeadersLike", p!"websockets.datastructures", p!"HeadersLike"),
    (p!"MultipleValuesError", p!"websockets.datastructures", p!"MultipleValuesError"),
    (p!"InvalidHandshake", p!"websockets.exceptions", p!"InvalidHandshake"),
    (p!"InvalidHeader", p!"websockets.exceptions", p!"InvalidHeader"),
    (p!"InvalidHeaderValue", p!"websockets.exceptions", p!"InvalidHeaderValue"),
    (p!"InvalidStatusCode", p!"websockets.exceptions", p!"InvalidStatusCode"),
    (p!"InvalidUpgrade", p!"websockets.exceptions", p!"InvalidUpgrade"),
    (p!"NegotiationError", p!"websockets.exceptions", p!"NegotiationError"),
    (p!"ClientExtensionFactory", p!"websockets.extensions.base", p!"ClientExtensionFactory"),
    (p!"Extension", p!"websockets.extensions.base", p!"Extension"),
    (p!"build_authorization_basic", p!"websockets.headers", p!"build_authorization_basic"),
    (p!"build_extension", p!"websockets.headers", p!"build_extension"),
    (p!"build_subprotocol", p!"websockets.headers", p!"build_subprotocol"),
    (p!"parse_connection", p!"websockets.headers", p!"parse_connection"),
    (p!"parse_extension", p!"websockets.headers", p!"parse_extension"),
    (p!"parse_subprotocol", p!"websockets.headers", p!"parse_subprotocol"),
    (p!"parse_upgrade", p!"websockets.headers", p!"parse_upgrade"),
    (p!"USER_AGENT", p!"websockets.http", p!"USER_AGENT"), (p!"build_host", p!"websockets.http", p!"build_host"),
    (p!"Request", p!"websockets.http11", p!"Request"), (p!"Response", p!"websockets.http11", p!"Response"),
    (p!"lazy_import", p!"websockets.imports", p!"lazy_import"),
    (p!"ConnectionOption", p!"websockets.typing", p!"ConnectionOption"),
    (p!"ExtensionHeader", p!"websockets.typing", p!"ExtensionHeader"),
    (p!"Origin", p!"websockets.typing", p!"Origin"), (p!"Subprotocol", p!"websockets.typing", p!"Subprotocol"),
    (p!"UpgradeProtocol", p!"websockets.typing", p!"UpgradeProtocol"),
    (p!"parse_uri", p!"websockets.uri", p!"parse_uri"), (p!"accept_key", p!"websockets.utils", p!"accept_key"),
    (p!"generate_key", p!"websockets.utils", p!"generate_key")]
  aliases := [
    (p!"connect", p!".legacy.client"), (p!"unix_connect", p!".legacy.client"),
    (p!"WebSocketClientProtocol", p!".legacy.client")]
  deprecated := [
]

/-- /repo/src/websockets/http.py 11-22: the call to `lazy_import` -/
def call_websockets_http : Call Obj where
  name := p!"websockets.http"
  package := p!"websockets"
  vars := dunders p!"websockets.http" ++ [
    (p!"ipaddress", p!"ipaddress", p!""), (p!"sys", p!"sys", p!""),
    (p!"lazy_import", p!"websockets.imports", p!"lazy_import"),
    (p!"websockets_version", p!"websockets.version", p!"version")]
  aliases := [
    (p!"Headers", p!".datastructures"), (p!"MultipleValuesError", p!".datastructures")]
  deprecated := [
    (p!"read_request", p!".legacy.http"), (p!"read_response", p!".legacy.http")]

/-- /repo/src/websockets/server.py 40-48: the call to `lazy_import` -/
def call_websockets_server : Call Obj where
  name := p!"websockets.server"
  package := p!"websockets"
  vars := dunders p!"websockets.server" ++ [
    (p!"base64", p!"base64", p!""), (p!"binascii", p!"binascii", p!""), (p!"collections", p!"collections", p!""),
    (p!"email", p!"email", p!""), (p!"http", p!"http", p!""), (p!"logging", p!"logging", p!""),
    (p!"Callable", p!"typing", p!"Callable"), (p!"Generator", p!"typing", p!"Generator"),
    (p!"List", p!"typing", p!"List"), (p!"Optional", p!"typing", p!"Optional"),
    (p!"Sequence", p!"typing", p!"Sequence"), (p!"Tuple", p!"typing", p!"Tuple"), (p!"Union", p!"typing", p!"Union"),
    (p!"cast", p!"typing", p!"cast"), (p!"CONNECTING", p!"websockets.connection", p!"CONNECTING"),
    (p!"OPEN", p!"websockets.connection", p!"OPEN"), (p!"SERVER", p!"websockets.connection", p!"SERVER"),
    (p!"Connection", p!"websockets.connection", p!"Connection"),
    (p!"Headers", p!"websockets.datastructures", p!"Headers"),
    (p!"HeadersLike", p!"websockets.datastructures", p!"HeadersLike"),
    (p!"MultipleValuesError", p!"websockets.datastructures", p!"MultipleValuesError"),
    (p!"InvalidHandshake", p!"websockets.exceptions", p!"InvalidHandshake"),
    (p!"InvalidHeader", p!"websockets.exceptions", p!"InvalidHeader"),
    (p!"InvalidHeaderValue", p!"websockets.exceptions", p!"InvalidHeaderValue"),
    (p!"InvalidOrigin", p!"websockets.exceptions", p!"InvalidOrigin"),
    (p!"InvalidUpgrade", p!"websockets.exceptions", p!"InvalidUpgrade"),
    (p!"NegotiationError", p!"websockets.exceptions", p!"NegotiationError"),
    (p!"Extension", p!"websockets.extensions.base", p!"Extension"),
    (p!"ServerExtensionFactory", p!"websockets.extensions.base", p!"ServerExtensionFactory"),
    (p!"build_extension", p!"websockets.headers", p!"build_extension"),
    (p!"parse_connection", p!"websockets.headers", p!"parse_connection"),
    (p!"parse_extension", p!"websockets.headers", p!"parse_extension"),
    (p!"parse_subprotocol", p!"websockets.headers", p!"parse_subprotocol"),
    (p!"parse_upgrade", p!"websockets.headers", p!"parse_upgrade"),
    (p!"USER_AGENT", p!"websockets.http", p!"USER_AGENT"), (p!"Request", p!"websockets.http11", p!"Request"),
    (p!"Response", p!"websockets.http11", p!"Response"), (p!"lazy_import", p!"websockets.imports", p!"lazy_import"),
    (p!"ConnectionOption", p!"websockets.typing", p!"ConnectionOption"),
    (p!"ExtensionHeader", p!"websockets.typing", p!"ExtensionHeader"),
    (p!"Origin", p!"websockets.typing", p!"Origin"), (p!"Subprotocol", p!"websockets.typing", p!"Subprotocol"),
    (p!"UpgradeProtocol", p!"websockets.typing", p!"UpgradeProtocol"),
    (p!"accept_key", p!"websockets.utils", p!"accept_key")]
  aliases := [
    (p!"serve", p!".legacy.server"), (p!"unix_serve", p!".legacy.server"),
    (p!"WebSocketServerProtocol", p!".legacy.server"), (p!"WebSocketServer", p!".legacy.server")]
  deprecated := [
]

/-- The calls to `lazy_import`, with the names of each module
(__init__.py, client.py, server.py, http.py, exceptions.py: top level) -/
def calls : List (Call Obj × List (PyStr × Obj)) := [
  (call_websockets, names_websockets), (call_websockets_client, names_websockets_client),
  (call_websockets_http, names_websockets_http), (call_websockets_server, names_websockets_server)]

/-- /repo/src/websockets/__init__.py 5-49 `__all__` -/
def all : List PyStr := [
  p!"AbortHandshake", p!"basic_auth_protocol_factory", p!"BasicAuthWebSocketServerProtocol", p!"ClientConnection",
  p!"connect", p!"ConnectionClosed", p!"ConnectionClosedError", p!"ConnectionClosedOK", p!"Data",
  p!"DuplicateParameter", p!"ExtensionHeader", p!"ExtensionParameter", p!"InvalidHandshake", p!"InvalidHeader",
  p!"InvalidHeaderFormat", p!"InvalidHeaderValue", p!"InvalidMessage", p!"InvalidOrigin", p!"InvalidParameterName",
  p!"InvalidParameterValue", p!"InvalidState", p!"InvalidStatusCode", p!"InvalidUpgrade", p!"InvalidURI",
  p!"NegotiationError", p!"Origin", p!"parse_uri", p!"PayloadTooBig", p!"ProtocolError", p!"RedirectHandshake",
  p!"SecurityError", p!"serve", p!"ServerConnection", p!"Subprotocol", p!"unix_connect", p!"unix_serve",
  p!"WebSocketClientProtocol", p!"WebSocketCommonProtocol", p!"WebSocketException", p!"WebSocketProtocolError",
  p!"WebSocketServer", p!"WebSocketServerProtocol", p!"WebSocketURI"]

end WS.Imports.Repo
