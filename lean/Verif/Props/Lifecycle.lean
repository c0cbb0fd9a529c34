import Verif.Props.ClosingCodes
import Verif.Props.SessionDeflate

/-!
# C80, C81, from the beginning of the connection

`C80_closing` and `C81_codes_partial` are about connections that were just opened.  The opening handshake
leads to such connections.
-/

namespace WS

open Spec

variable {X E H : Type}

theorem Conn.Unclosed.justOpened {k : Conn X E} {side : Side} {m : Option Int} (hu : k.Unclosed m)
    (hf : k.AtFrame side) (hs : k.core.state = .opened) (hm : ∀ n, m = some n → n.natAbs < 10 ^ 40) :
    k.JustOpened := by
  obtain ⟨h1, h2, h3, h4⟩ := hu
  obtain ⟨f1, f2, f3, f4, f5⟩ := hf
  refine ⟨⟨?_, ?_, ?_, ?_, ?_⟩, f2, f3, hs, h1, h2, h3⟩
  · have := Conn.init_settled (X := X) (E := E) side .opened m
    unfold Conn.Settled at this ⊢
    rw [f2, f3]
    exact this
  · rw [Conn.Sound, f3]; trivial
  · rw [f3]; trivial
  · intro n hn
    rw [h4] at hn
    exact ⟨hm n hn, by rw [f5]; nofun⟩
  · exact .inl fun he => by rw [h2] at he; cases he

/-- A client and a server, from the beginning of the connection, with any extensions that are compatible,
as in C43.  The client sends a request; the server receives it in any pieces and accepts it; the client
receives the response in any pieces.  Then both make any calls, receive anything, in any order.  If the
server has received everything that the client wrote, and each side has been told of the end of the stream
when the other side has sent it, then either the connection isn't over for any side, or both sides have sent
and received the end of the stream. -/
theorem C80_session {cpy spy : PyEnv} {cc : ClientConfig X} {sc : ServerConfig X}
    {R : X → X → Prop} {req : Request} (hconn : cc.connect cpy = .ok req)
    (hpath : ∀ c ∈ cc.uri.resourceName, 0x21 ≤ c ∧ c ≤ 0x7E)
    (hlen : cc.uri.resourceName.length + 15 ≤ 4110) (hreq : Sendable req.headers.rawItems)
    (hcx : values cc.extraHeaders p!"Sec-WebSocket-Extensions" = [])
    (hcp : values cc.extraHeaders p!"Sec-WebSocket-Protocol" = [])
    (hce : ∀ fs, cc.extensions = some fs → ∀ f ∈ fs, TokenExt (f.name, f.requestParams))
    (hct : ∀ ps, cc.subprotocols = some ps → ∀ p ∈ ps, Tok p)
    (hcompat : Compatible R (cc.extensions.getD []) (sc.extensions.getD []))
    (hsx : ∀ extra, sc.extraHeaders req.path req.headers = .ok extra →
      ∀ n ∈ handshakeNames, values extra n = [])
    (ops : ExtOps X) (hl : ops.Lawful) (ht : ops.Tame)
    (crand srand : Nat → Bytes) (hcr : ∀ i, (crand i).length = 4)
    (hsr : ∀ i, (srand i).length = 4) (cmax smax : Option Int)
    (hcm : ∀ n, cmax = some n → n.natAbs < 10 ^ 40) (hsm : ∀ n, smax = some n → n.natAbs < 10 ^ 40) :
    let cenv := cc.env ops crand hcr
    let senv := sc.env spy ops srand hsr
    let c1 := ((clientInit cmax cc.origin).apply cenv (.handshake (.sendRequest req))).2
    ∀ chunks, chunks.flatten = c1.core.writes.flatten →
    let s1 := ((serverInit smax).feedAll senv chunks).2
    ∀ date r a, sc.accept spy date req = (.ok r, a) → r.statusCode = 101 →
    Sendable r.headers.rawItems →
    let s2 := (s1.apply senv (.handshake (.accept date req))).2
    let s3 := (s2.apply senv (.handshake (.sendResponse r))).2
    ∀ chunks', chunks'.flatten = s3.core.writes.flatten →
    let c2 := (c1.feedAll cenv chunks').2
    (c2.JustOpened ∧ s3.JustOpened) ∧
    ∀ opsc opss, (∀ op ∈ opsc, op.isHandshake = false) → (∀ op ∈ opss, op.isHandshake = false) →
      c2.core.writes.flatten ++ received opss = (c2.output cenv opsc).flatten →
      ([] ∈ c2.output cenv opsc → .receiveEof ∈ opss) →
      ([] ∈ s3.output senv opss → .receiveEof ∈ opsc) →
      (Over cenv c2 opsc ∨ Over senv s3 opss) →
      ([] ∈ c2.output cenv opsc ∧ .receiveEof ∈ opss) ∧
        ([] ∈ s3.output senv opss ∧ .receiveEof ∈ opsc) := by
  intro cenv senv c1 chunks hch s1 date r a hacc h101 hsend s2 s3 chunks' hch' c2
  obtain ⟨hev, hst, hres⟩ := C43_agreement_partial (ops := ops) hconn hpath hlen hreq hcx hcp hce
    hct hcompat hsx crand srand hcr hsr cmax smax chunks hch
  rcases hres date r a hacc with ⟨h, _⟩ | ⟨_, hso, hres⟩
  · exact absurd h101 h
  obtain ⟨hco, -, -, -, hcf, hsf, hcu, hsu⟩ := hres hsend chunks' hch'
  have hjc : c2.JustOpened := hcu.justOpened hcf hco hcm
  have hjs : s3.JustOpened := hsu.justOpened hsf hso hsm
  have hlc : cenv.Lawful := ClientConfig.env_lawful cc hl _ _
  have hls : senv.Lawful := ServerConfig.env_lawful sc spy hl _ _
  refine ⟨⟨hjc, hjs⟩, fun opsc opss h1 h2 h3 h4 h5 h6 => ?_⟩
  exact C80_closing hlc hls ht ht c2 s3 hjc hjs hcf.1 hsf.1 opsc h1 opss h2 h3 h4 h5 h6

/-- Likewise for **C81**: after the opening handshake, if one side closed the connection and the other one
didn't call `send_close()`, each received everything that the other wrote, and receiving never raised an
exception, then both sides report the code and the reason given to `send_close()`. -/
theorem C81_session_partial {cpy spy : PyEnv} {cc : ClientConfig X} {sc : ServerConfig X}
    {R : X → X → Prop} {req : Request} (hconn : cc.connect cpy = .ok req)
    (hpath : ∀ c ∈ cc.uri.resourceName, 0x21 ≤ c ∧ c ≤ 0x7E)
    (hlen : cc.uri.resourceName.length + 15 ≤ 4110) (hreq : Sendable req.headers.rawItems)
    (hcx : values cc.extraHeaders p!"Sec-WebSocket-Extensions" = [])
    (hcp : values cc.extraHeaders p!"Sec-WebSocket-Protocol" = [])
    (hce : ∀ fs, cc.extensions = some fs → ∀ f ∈ fs, TokenExt (f.name, f.requestParams))
    (hct : ∀ ps, cc.subprotocols = some ps → ∀ p ∈ ps, Tok p)
    (hcompat : Compatible R (cc.extensions.getD []) (sc.extensions.getD []))
    (hsx : ∀ extra, sc.extraHeaders req.path req.headers = .ok extra →
      ∀ n ∈ handshakeNames, values extra n = [])
    (ops : ExtOps X) (hl : ops.Lawful) (ht : ops.Tame)
    (crand srand : Nat → Bytes) (hcr : ∀ i, (crand i).length = 4)
    (hsr : ∀ i, (srand i).length = 4) (cmax smax : Option Int)
    (hcm : ∀ n, cmax = some n → n.natAbs < 10 ^ 40) (hsm : ∀ n, smax = some n → n.natAbs < 10 ^ 40)
    (code : Option Int) (reason : PyStr) :
    let cenv := cc.env ops crand hcr
    let senv := sc.env spy ops srand hsr
    let c1 := ((clientInit cmax cc.origin).apply cenv (.handshake (.sendRequest req))).2
    ∀ chunks, chunks.flatten = c1.core.writes.flatten →
    let s1 := ((serverInit smax).feedAll senv chunks).2
    ∀ date r a, sc.accept spy date req = (.ok r, a) → r.statusCode = 101 →
    Sendable r.headers.rawItems →
    let s2 := (s1.apply senv (.handshake (.accept date req))).2
    let s3 := (s2.apply senv (.handshake (.sendResponse r))).2
    ∀ chunks', chunks'.flatten = s3.core.writes.flatten →
    let c2 := (c1.feedAll cenv chunks').2
    ∀ opsc opss, (∀ op ∈ opsc, op.isHandshake = false) → (∀ op ∈ opss, op.isHandshake = false) →
      c2.core.writes.flatten ++ received opss = (c2.output cenv opsc).flatten →
      s3.core.writes.flatten ++ received opsc = (s3.output senv opss).flatten →
      Smooth cenv c2 opsc → Smooth senv s3 opss →
      (∃ pre post, opsc = pre ++ .sendClose code reason :: post ∧
        ((c2.exec cenv pre).2.apply cenv (.sendClose code reason)).1 = none ∧
        ∀ op ∈ opss, op.isSendClose = false) ∨
      (∃ pre post, opss = pre ++ .sendClose code reason :: post ∧
        ((s3.exec senv pre).2.apply senv (.sendClose code reason)).1 = none ∧
        ∀ op ∈ opsc, op.isSendClose = false) →
      let c' := (c2.exec cenv opsc).2
      let s' := (s3.exec senv opss).2
      c'.core.closeCode = some (code.getD 1005) ∧ c'.core.closeReason = some reason ∧
        s'.core.closeCode = some (code.getD 1005) ∧ s'.core.closeReason = some reason := by
  intro cenv senv c1 chunks hch s1 date r a hacc h101 hsend s2 s3 chunks' hch' c2 opsc opss h1 h2 h3 h4 h5 h6 h7
  obtain ⟨hev, hst, hres⟩ := C43_agreement_partial (ops := ops) hconn hpath hlen hreq hcx hcp hce
    hct hcompat hsx crand srand hcr hsr cmax smax chunks hch
  rcases hres date r a hacc with ⟨h, _⟩ | ⟨_, hso, hres⟩
  · exact absurd h101 h
  obtain ⟨hco, -, -, -, hcf, hsf, hcu, hsu⟩ := hres hsend chunks' hch'
  have hjc : c2.JustOpened := hcu.justOpened hcf hco hcm
  have hjs : s3.JustOpened := hsu.justOpened hsf hso hsm
  have hlc : cenv.Lawful := ClientConfig.env_lawful cc hl _ _
  have hls : senv.Lawful := ServerConfig.env_lawful sc spy hl _ _
  rcases h7 with ⟨pre, post, rfl, h8, h9⟩ | ⟨pre, post, rfl, h8, h9⟩
  · exact C81_codes_partial hlc hls ht ht c2 s3 hjc hjs (by rw [hcf.1, hsf.1]; simp) pre post code reason
      opss h1 h2 h3 h4 h5 h6 h8 h9
  · obtain ⟨g1, g2, g3, g4⟩ := C81_codes_partial hls hlc ht ht s3 c2 hjs hjc (by rw [hcf.1, hsf.1]; simp) pre
      post code reason opsc h2 h1 h4 h3 h6 h5 h8 h9
    exact ⟨g3, g4, g1, g2⟩

/-- Examples: a client and a server without extensions. -/
def plainClient : ClientConfig Empty where
  uri := { secure := false, host := p!"localhost", port := 80, resourceName := p!"/chat" }
  raw := b!"the sample nonce"

def plainServer : ServerConfig Empty := {}

/-- The whole life of a connection: what each side wrote, and the codes that they report, if the client
sends `hello`, and then closes the connection. -/
def plainLife : Option (Conn Empty Response × Conn Empty Request × Bool) :=
  let cenv := plainClient.env noExts (fun _ => [1, 2, 3, 4]) (fun _ => rfl)
  let senv := plainServer.env PyEnv.simple noExts (fun _ => [1, 2, 3, 4]) (fun _ => rfl)
  match plainClient.connect PyEnv.simple with
  | .error _ => none
  | .ok req =>
    let c1 := ((clientInit none none).apply cenv (.handshake (.sendRequest req))).2
    let s1 := ((serverInit (some 100)).feedAll senv [c1.core.writes.flatten]).2
    match plainServer.accept PyEnv.simple p!"now" req with
    | (.error _, _) => none
    | (.ok r, _) =>
      let s2 := (s1.apply senv (.handshake (.accept p!"now" req))).2
      let s3 := (s2.apply senv (.handshake (.sendResponse r))).2
      let c2 := (c1.feedAll cenv [s3.core.writes.flatten]).2
      let opsc := [.sendText b!"hello" true, .sendClose (some 1000) p!"bye",
        .receiveData ([0x88, 5, 3, 232] ++ b!"bye"), .receiveEof]
      let opss := [.receiveData [0x81, 0x85, 1, 2, 3, 4, 105, 103, 111], .receiveData [104, 110, 0x88,
        0x85, 1, 2, 3, 4, 2, 234, 97, 125, 100], .receiveEof]
      some ((c2.exec cenv opsc).2, (s3.exec senv opss).2,
        decide (r.statusCode = 101) && req.headers.rawItems.all goodHeader &&
        decide (req.headers.rawItems.length ≤ 256) && r.headers.rawItems.all goodHeader &&
        decide (r.headers.rawItems.length ≤ 256) &&
        decide (c2.core.writes.flatten ++ received opss = (c2.output cenv opsc).flatten) &&
        decide (s3.core.writes.flatten ++ received opsc = (s3.output senv opss).flatten) &&
        decide ([] ∈ c2.output cenv opsc) && decide ([] ∈ s3.output senv opss) &&
        decide ((c2.exec cenv opsc).1.raised = [none, none, none, none]) &&
        decide ((s3.exec senv opss).1.raised = [none, none, none]))

example : (match plainLife with
    | some (c, s, ok) => ok && decide (c.core.closeCode = some 1000) && decide (s.core.closeCode = some 1000) &&
        decide (c.core.closeReason = some p!"bye") && decide (s.core.closeReason = some p!"bye")
    | none => false) = true := by decide +kernel

end WS
