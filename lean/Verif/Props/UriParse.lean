import Verif.Props.Uri
import Verif.Lemmas.IpAddress

/-!
# C64: parsing URIs; C65: URIs can't be used to inject headers
-/

namespace WS.Uri

/-! ## C65 -/

theorem utf8Encode_low_mem {s : PyStr} {bs : Bytes} (h : utf8Encode s = .ok bs) {b : UInt8} (hb : b ∈ bs)
    (hlt : b.toNat < 128) : b.toNat ∈ s := by
  induction s generalizing bs with
  | nil => cases h; cases hb
  | cons c s ih =>
    obtain ⟨e, bs', he, hbs, rfl⟩ := utf8Encode_cons_ok.1 h
    rcases List.mem_append.1 hb with hb | hb
    · by_cases hc : c < 128
      · unfold utf8EncodeCp at he
        rw [if_pos hc] at he
        cases he
        simp only [List.mem_singleton] at hb
        subst hb
        rw [u8_ofNat_toNat (by omega)]
        exact List.mem_cons_self ..
      · exfalso
        have key : ∀ n, 128 ≤ n → n < 256 → b ≠ UInt8.ofNat n := by
          rintro n h1 h2 rfl
          rw [u8_ofNat_toNat h2] at hlt
          omega
        unfold utf8EncodeCp at he
        rw [if_neg hc] at he
        split at he
        · cases he
          simp only [List.mem_cons, List.not_mem_nil, or_false] at hb
          rcases hb with hb | hb <;> exact key _ (by omega) (by omega) hb
        · split at he
          · split at he
            · cases he
            · cases he
              simp only [List.mem_cons, List.not_mem_nil, or_false] at hb
              rcases hb with hb | hb | hb <;> exact key _ (by omega) (by omega) hb
          · split at he
            · cases he
              simp only [List.mem_cons, List.not_mem_nil, or_false] at hb
              rcases hb with hb | hb | hb | hb <;> exact key _ (by omega) (by omega) hb
            · cases he
    · exact List.mem_cons_of_mem _ (ih hbs hb)

theorem quote_chars {s r : PyStr} (h : quote s = .ok r) {c : Nat} (hc : c ∈ r) :
    (33 ≤ c ∧ c < 127) ∧ (c = 35 → 35 ∈ s) := by
  unfold quote at h
  split at h
  · cases h
  · rename_i bs hb
    cases h
    rw [List.mem_flatMap] at hc
    obtain ⟨b, hm, hc⟩ := hc
    have hx : ∀ n, n < 16 → 48 ≤ hexUpper n ∧ hexUpper n < 72 := by
      intro n hn
      unfold hexUpper
      split <;> omega
    have hlt := b.toNat_lt
    split at hc
    · rename_i hs
      simp only [List.mem_singleton] at hc
      subst hc
      have hb33 : 33 ≤ b.toNat ∧ b.toNat < 127 := by
        have : ∀ n : Nat, n < 256 → isSafe n = true → 33 ≤ n ∧ n < 127 := by decide +kernel
        exact this _ hlt hs
      refine ⟨hb33, fun h35 => ?_⟩
      have := utf8Encode_low_mem hb hm (by omega)
      rwa [h35] at this
    · simp only [List.mem_cons, List.not_mem_nil, or_false] at hc
      rcases hc with rfl | rfl | rfl
      · omega
      · have := hx (b.toNat / 16) (by omega)
        omega
      · have := hx (b.toNat % 16) (by omega)
        omega

theorem quote_head {s r : PyStr} (h : quote s = .ok r) (hs : s.head? = some 47) : r.head? = some 47 := by
  cases s with
  | nil => cases hs
  | cons x xs =>
    cases hs
    unfold quote at h
    split at h
    · cases h
    · rename_i bs hb
      cases h
      unfold utf8Encode at hb
      simp only [utf8EncodeCp] at hb
      simp only [show (47 < 0x80) = True from by simp, if_true] at hb
      split at hb
      · cases hb
      · cases hb
        rfl

/-- **C65.** Whatever the URI is, the resource name starts with a slash, and neither it nor the
user information contain tabs or line terminators; the resource name doesn't contain a fragment.  If the
URI is ASCII, this is also true of the host, and every component is ASCII. -/
theorem C65_clean {env : Env} {uri : PyStr} {w : WsUri} (h : parseUri env uri = .ok w) :
    w.resourceName.head? = some 47 ∧
      (∀ c ∈ w.resourceName, c ≠ 9 ∧ c ≠ 10 ∧ c ≠ 13 ∧ c ≠ 35 ∧ c < 128) ∧
      (∀ u, w.userInfo = some u → ∀ c ∈ u.1 ++ u.2, c ≠ 9 ∧ c ≠ 10 ∧ c ≠ 13 ∧ c < 128) ∧
      ((∀ c ∈ uri, c < 128) → ∀ c ∈ w.host, c ≠ 9 ∧ c ≠ 10 ∧ c ≠ 13 ∧ c ≠ 47 ∧ c ≠ 63 ∧ c ≠ 35 ∧ c < 128) := by
  obtain ⟨p, host, port, w0, h1, -, h3, -, -, -, h7, -, h9, h10, h11⟩ := parseUri_ok h
  obtain ⟨s1, -, s3, s4, s5, -, s7⟩ := urlsplit_some h1
  have hhost : p.hostinfo.1 ≠ [] := by
    intro he
    simp [Split.hostname, he] at h3
  have hnet : p.netloc ≠ [] := by
    intro he
    cases hh : p.hostinfo.1 with
    | nil => exact hhost hh
    | cons x xs =>
      have := hostinfo_mem (p := p) (c := x) (by rw [hh]; simp)
      rw [he] at this
      cases this
  -- before the conversion of IRIs
  have r1 : w0.resourceName.head? = some 47 := by
    rw [h9]
    cases hp : p.path with
    | nil => rfl
    | cons x xs =>
      rcases s4 hnet with he | he
      · rw [hp] at he; cases he
      · rw [hp] at he; cases he; rfl
  have r2 : ∀ c ∈ w0.resourceName, c ≠ 9 ∧ c ≠ 10 ∧ c ≠ 13 ∧ c ≠ 35 ∧ (c ∈ uri ∨ c = 47 ∨ c = 63) := by
    intro c hc
    rw [h9, List.mem_append] at hc
    rcases hc with hc | hc
    · split at hc
      · simp only [List.mem_singleton] at hc
        subst hc
        simp
      · obtain ⟨a, b⟩ := s1 c (.inr (.inl hc))
        exact ⟨b.1, b.2.2, b.2.1, fun e => s5 (e ▸ hc), .inl a⟩
    · split at hc
      · simp only [List.mem_append, List.mem_singleton] at hc
        rcases hc with hc | hc
        · subst hc
          simp
        · obtain ⟨a, b⟩ := s1 c (.inr (.inr hc))
          exact ⟨b.1, b.2.2, b.2.1, fun e => s7 (e ▸ hc), .inl a⟩
      · cases hc
  have r3 : ∀ u, w0.userInfo = some u → ∀ c ∈ u.1 ++ u.2, c ≠ 9 ∧ c ≠ 10 ∧ c ≠ 13 ∧ c ∈ uri := by
    intro u hu c hc
    rw [hu] at h10
    have hm : c ∈ p.netloc := by
      unfold Split.userinfo at h10
      split at h10
      · cases h10
      · rename_i ui info hr
        rw [(rpartition_some hr).1]
        refine List.mem_append_left _ ?_
        split at h10
        · rename_i a b hp
          cases h10
          rw [(partition_some.1 hp).1]
          rcases List.mem_append.1 hc with hc | hc
          · exact List.mem_append_left _ hc
          · exact List.mem_append_right _ (List.mem_cons_of_mem _ hc)
        · cases h10
    obtain ⟨a, b⟩ := s1 c (.inl hm)
    exact ⟨b.1, b.2.2, b.2.1, a⟩
  split at h11
  · rename_i ha
    cases h11
    have ha := isAscii_iff.1 ha
    refine ⟨r1, ?_, ?_, ?_⟩
    · intro c hc
      obtain ⟨b1, b2, b3, b4, b5⟩ := r2 c hc
      refine ⟨b1, b2, b3, b4, ?_⟩
      rcases b5 with b5 | rfl | rfl
      · exact ha c b5
      · omega
      · omega
    · intro u hu c hc
      obtain ⟨b1, b2, b3, b4⟩ := r3 u hu c hc
      exact ⟨b1, b2, b3, ha c b4⟩
    · intro _ c hc
      rw [h7] at hc
      have hraw : ∀ c ∈ p.hostinfo.1, c ≠ 9 ∧ c ≠ 10 ∧ c ≠ 13 ∧ c ≠ 47 ∧ c ≠ 63 ∧ c ≠ 35 ∧ c < 128 := by
        intro c hc
        have hm := hostinfo_mem hc
        obtain ⟨a, b⟩ := s1 c (.inl hm)
        obtain ⟨d1, d2, d3⟩ := s3 c hm
        exact ⟨b.1, b.2.2, b.2.1, d1, d2, d3, ha c a⟩
      have hasc : isAscii p.hostinfo.1 = true := isAscii_iff.2 fun c hc => (hraw c hc).2.2.2.2.2.2
      obtain ⟨g1, -, -⟩ := hostname_ascii h3 hasc
      have hlow : c < 128 := by
        unfold Split.hostname at h3
        simp only at h3
        have hl : ∀ s : PyStr, (∀ c ∈ s, c < 128) → ∀ c ∈ pyLower s, c < 128 := by
          intro s hs c hc
          rw [pyLower_map, List.mem_map] at hc
          obtain ⟨x, hx, rfl⟩ := hc
          have := hs x hx
          unfold lowerChar
          split <;> omega
        have hr : ∀ c ∈ p.hostinfo.1, c < 128 := fun c hc => (hraw c hc).2.2.2.2.2.2
        split at h3
        · cases h3
        · split at h3
          · cases h3
            rw [lowerStr, if_pos hasc] at hc
            exact hl _ hr c hc
          · rename_i a z hp
            cases h3
            obtain ⟨hs, -⟩ := partition_some.1 hp
            have ha' : ∀ c ∈ a, c < 128 := fun c hc => hr c (by rw [hs]; exact List.mem_append_left _ hc)
            rw [lowerStr, if_pos (isAscii_iff.2 ha')] at hc
            simp only [List.mem_append, List.mem_singleton] at hc
            rcases hc with (hc | rfl) | hc
            · exact hl _ ha' c hc
            · omega
            · exact hr c (by rw [hs]; simp [hc])
      have key : ∀ d, d < 65 ∨ (90 < d ∧ d < 97) ∨ 122 < d → d ∉ p.hostinfo.1 → c ≠ d := by
        rintro d hd hn rfl
        exact hn ((g1 _ hd).1 hc)
      refine ⟨key 9 (by omega) fun hm => (hraw _ hm).1 rfl, key 10 (by omega) fun hm => (hraw _ hm).2.1 rfl,
        key 13 (by omega) fun hm => (hraw _ hm).2.2.1 rfl, key 47 (by omega) fun hm => (hraw _ hm).2.2.2.1 rfl,
        key 63 (by omega) fun hm => (hraw _ hm).2.2.2.2.1 rfl,
        key 35 (by omega) fun hm => (hraw _ hm).2.2.2.2.2.1 rfl, hlow⟩
  · rename_i hna
    have hno : ¬∀ c ∈ uri, c < 128 := fun ha => hna (isAscii_iff.2 ha)
    unfold toUri at h11
    split at h11
    · cases h11
    · split at h11
      · cases h11
      · rename_i host' _ rn hq
        have q1 : ∀ c ∈ rn, c ≠ 9 ∧ c ≠ 10 ∧ c ≠ 13 ∧ c ≠ 35 ∧ c < 128 := by
          intro c hc
          obtain ⟨b1, b2⟩ := quote_chars hq hc
          exact ⟨by omega, by omega, by omega, fun e => (r2 35 (b2 e)).2.2.2.1 rfl, by omega⟩
        have q2 := quote_head hq r1
        split at h11
        · cases h11
          rename_i hu
          refine ⟨q2, q1, ?_, fun ha => absurd ha hno⟩
          intro u hu'
          rw [show _ = none from hu] at hu'
          cases hu'
        · split at h11
          · cases h11
          · split at h11
            · cases h11
            · cases h11
              rename_i us hq1 _ pw hq2
              refine ⟨q2, q1, ?_, fun ha => absurd ha hno⟩
              intro u hu c hc
              cases hu
              rcases List.mem_append.1 hc with hc | hc
              · obtain ⟨b1, -⟩ := quote_chars hq1 hc
                omega
              · obtain ⟨b1, -⟩ := quote_chars hq2 hc
                omega

/-- Tabs and line terminators are removed; spaces and other control characters are kept. -/
example : parseUri exampleEnv p!"ws://h/a\r\nX-Injected: yes\r\n" =
    .ok { secure := false, host := p!"h", port := 80, resourceName := p!"/aX-Injected: yes" } := by
  decide +kernel

example : parseUri exampleEnv p!"ws://ü:é@h/é#" =
    .ok { secure := false, host := p!"h", port := 80, resourceName := p!"/%C3%A9",
          userInfo := some (p!"%C3%BC", p!"%C3%A9") } := by
  decide +kernel

/-! ## C64 -/

/-- The components of a WebSocket URI (RFC 6455, section 3; RFC 3986, section 3) -/
structure Spec.Parts where
  scheme : PyStr
  user : Option (PyStr × PyStr) := none
  host : PyStr
  port : Option Nat := none
  path : PyStr := []
  query : Option PyStr := none

namespace Spec.Parts

/-- The host, in brackets if it contains a colon, that is, if it's an IPv6 address -/
def hostText (u : Parts) : PyStr := if 58 ∈ u.host then p!"[" ++ u.host ++ p!"]" else u.host

def portText (u : Parts) : PyStr :=
  match u.port with
  | none => []
  | some n => p!":" ++ decStr n

def userText (u : Parts) : PyStr :=
  match u.user with
  | none => []
  | some (a, b) => a ++ p!":" ++ b ++ p!"@"

def queryText (u : Parts) : PyStr :=
  match u.query with
  | none => []
  | some q => p!"?" ++ q

/-- RFC 3986, 5.3 -/
def text (u : Parts) : PyStr :=
  u.scheme ++ p!"://" ++ u.userText ++ u.hostText ++ u.portText ++ u.path ++ u.queryText

/-- Printable ASCII characters, other than those that delimit components -/
def Clean (excluded : PyStr) (s : PyStr) : Prop := ∀ c ∈ s, 32 < c ∧ c < 127 ∧ c ∉ excluded

/-- A well-formed WebSocket URI -/
structure Wf (u : Parts) (secure : Bool) : Prop where
  scheme : pyLower u.scheme = if secure then p!"wss" else p!"ws"
  user : ∀ a b, u.user = some (a, b) → Clean p!":/?#[]" a ∧ Clean p!"/?#[]" b
  host : u.host ≠ [] ∧ Clean p!"/?#@[]%" u.host ∧ (58 ∈ u.host → IPv6Address u.host)
  port : ∀ n, u.port = some n → 1 ≤ n ∧ n ≤ 65535
  path : Clean p!"?#" u.path ∧ (u.path = [] ∨ u.path.head? = some 47)
  query : ∀ q, u.query = some q → Clean p!"#" q

end Spec.Parts

theorem partition_eq {c : Nat} {a b : PyStr} (h : c ∉ a) : partition c (a ++ c :: b) = some (a, b) :=
  partition_some.2 ⟨rfl, h⟩

theorem clean_not_mem {e s : PyStr} (h : Spec.Parts.Clean e s) {c : Nat} (hc : c ∈ e ∨ c ≤ 32 ∨ 127 ≤ c) :
    c ∉ s := by
  intro hm
  obtain ⟨h1, h2, h3⟩ := h c hm
  rcases hc with hc | hc | hc
  · exact h3 hc
  · omega
  · omega

theorem digitsValue_decStr (n : Nat) : isDigits (decStr n) = true ∧ digitsValue (decStr n) = n := by
  obtain ⟨h1, h2, h3⟩ := decStr_spec n
  constructor
  · unfold isDigits
    cases hd : decStr n with
    | nil => exact absurd hd h1
    | cons x xs =>
      rw [← hd]
      simp only [hd, List.isEmpty_cons, Bool.not_false, Bool.true_and]
      rw [← hd, List.all_eq_true]
      intro c hc
      have := h2 c hc
      simp [isDigit, this]
  · unfold digitsValue
    have : (fun n d : Nat => n * 10 + (d - 48)) = fun n d => 10 * n + (d - 48) := by
      funext n d
      omega
    rw [this, h3]

theorem scheme_cases {s : PyStr} {secure : Bool} (h : pyLower s = if secure then p!"wss" else p!"ws") :
    58 ∉ s ∧ (∀ c ∈ s, 32 < c ∧ c < 127) ∧ ∃ c t, s = c :: t ∧ isAlpha c = true ∧ s.all isSchemeChar = true := by
  have hc : ∀ c ∈ s, isAlpha c = true := by
    intro c hc
    have : lowerChar c ∈ pyLower s := by
      rw [pyLower_map]
      exact List.mem_map_of_mem hc
    rw [h] at this
    have h2 : lowerChar c = 119 ∨ lowerChar c = 115 := by
      split at this
      · simpa [show (p!"wss") = [119, 115, 115] from rfl] using this
      · simpa [show (p!"ws") = [119, 115] from rfl] using this
    unfold lowerChar at h2
    unfold isAlpha
    rw [Bool.or_eq_true, Bool.and_eq_true, Bool.and_eq_true, decide_eq_true_eq, decide_eq_true_eq,
      decide_eq_true_eq, decide_eq_true_eq]
    split at h2 <;> omega
  have ha : ∀ c, isAlpha c = true → 65 ≤ c ∧ c ≤ 122 := by
    intro c h
    unfold isAlpha at h
    rw [Bool.or_eq_true, Bool.and_eq_true, Bool.and_eq_true, decide_eq_true_eq, decide_eq_true_eq,
      decide_eq_true_eq, decide_eq_true_eq] at h
    omega
  refine ⟨fun hm => ?_, fun c hm => ?_, ?_⟩
  · have := ha _ (hc _ hm)
    omega
  · have := ha _ (hc _ hm)
    omega
  · cases s with
    | nil => cases secure <;> cases h
    | cons x xs =>
      refine ⟨x, xs, rfl, hc x (List.mem_cons_self ..), ?_⟩
      rw [List.all_eq_true]
      intro c hm
      have := hc c hm
      unfold isAlpha at this
      unfold isSchemeChar
      grind

namespace Spec.Parts

/-- The network location -/
def netloc (u : Parts) : PyStr := u.userText ++ (u.hostText ++ u.portText)

theorem portText_mem {u : Parts} {c : Nat} (h : c ∈ u.portText) : 48 ≤ c ∧ c ≤ 58 := by
  unfold portText at h
  split at h
  · cases h
  · rename_i n _
    rcases List.mem_append.1 h with h | h
    · simp only [show (p!":") = [58] from rfl, List.mem_singleton] at h
      omega
    · have := (decStr_spec n).2.1 c h
      omega

theorem hostText_mem {u : Parts} {secure : Bool} (h : u.Wf secure) {c : Nat} (hc : c ∈ u.hostText) :
    32 < c ∧ c < 127 ∧ c ∉ p!"/?#@%" := by
  have key : ∀ c ∈ u.host, 32 < c ∧ c < 127 ∧ c ∉ p!"/?#@%" := by
    intro c hc
    obtain ⟨h1, h2, h3⟩ := h.host.2.1 c hc
    refine ⟨h1, h2, fun hm => h3 ?_⟩
    have : ∀ c ∈ p!"/?#@%", c ∈ p!"/?#@[]%" := by decide
    exact this c hm
  unfold hostText at hc
  split at hc
  · simp only [List.mem_append, List.mem_singleton] at hc
    rcases hc with (rfl | hc) | rfl
    · decide
    · exact key c hc
    · decide
  · exact key c hc

theorem userText_mem {u : Parts} {secure : Bool} (h : u.Wf secure) {c : Nat} (hc : c ∈ u.userText) :
    32 < c ∧ c < 127 ∧ c ∉ p!"/?#[]" := by
  unfold userText at hc
  split at hc
  · cases hc
  · rename_i a b hu
    obtain ⟨ha, hb⟩ := h.user a b hu
    simp only [List.mem_append, List.mem_singleton] at hc
    rcases hc with ((hc | rfl) | hc) | rfl
    · obtain ⟨h1, h2, h3⟩ := ha c hc
      refine ⟨h1, h2, fun hm => h3 ?_⟩
      have : ∀ c ∈ p!"/?#[]", c ∈ p!":/?#[]" := by decide
      exact this c hm
    · decide
    · exact hb c hc
    · decide

theorem netloc_mem {u : Parts} {secure : Bool} (h : u.Wf secure) {c : Nat} (hc : c ∈ u.netloc) :
    32 < c ∧ c < 127 ∧ c ≠ 47 ∧ c ≠ 63 ∧ c ≠ 35 := by
  unfold netloc at hc
  simp only [List.mem_append] at hc
  rcases hc with hc | hc | hc
  · obtain ⟨h1, h2, h3⟩ := userText_mem h hc
    refine ⟨h1, h2, ?_, ?_, ?_⟩ <;> rintro rfl <;> exact h3 (by decide)
  · obtain ⟨h1, h2, h3⟩ := hostText_mem h hc
    refine ⟨h1, h2, ?_, ?_, ?_⟩ <;> rintro rfl <;> exact h3 (by decide)
  · have := portText_mem hc
    omega

theorem rpartition_netloc {u : Parts} {secure : Bool} (h : u.Wf secure) :
    rpartition 64 u.netloc = u.user.map fun p => (p.1 ++ p!":" ++ p.2, u.hostText ++ u.portText) := by
  have hn : 64 ∉ u.hostText ++ u.portText := by
    intro hm
    rcases List.mem_append.1 hm with hm | hm
    · exact (hostText_mem h hm).2.2 (by decide)
    · have := portText_mem hm
      omega
  unfold netloc userText
  cases hu : u.user with
  | none => exact rpartition_none.2 hn
  | some p =>
    have := rpartition_append (c := 64) (a := p.1 ++ p!":" ++ p.2) hn
    simpa [show (p!"@") = [64] from rfl] using this

theorem hostinfo {u : Parts} {secure : Bool} (h : u.Wf secure) (p : Split) (hp : p.netloc = u.netloc) :
    p.hostinfo = (u.host, u.port.map decStr) := by
  have h1 : ((rpartition 64 p.netloc).getD ([], p.netloc)).2 = u.hostText ++ u.portText := by
    rw [hp, rpartition_netloc h]
    cases hu : u.user with
    | none => simp [netloc, userText, hu]
    | some q => rfl
  have hport : ∀ port : PyStr, port = (match u.port with | none => [] | some n => decStr n) →
      (if port = [] then none else some port) = u.port.map decStr := by
    intro port hport
    cases hpo : u.port with
    | none => simp [hport, hpo]
    | some n =>
      have hne := (decStr_spec n).1
      rw [hpo] at hport
      simp only at hport
      rw [hport, if_neg hne]
      rfl
  have hpart : partition 58 u.portText = u.port.map fun n => ([], decStr n) := by
    unfold portText
    cases u.port with
    | none => rfl
    | some n => exact partition_eq (a := []) List.not_mem_nil
  unfold Split.hostinfo
  rw [h1]
  simp only
  by_cases hv : 58 ∈ u.host
  · have h93 : 93 ∉ u.host := clean_not_mem h.host.2.1 (.inl (by decide))
    have e1 : u.hostText ++ u.portText = [] ++ 91 :: (u.host ++ 93 :: u.portText) := by
      simp [hostText, hv, show (p!"[") = [91] from rfl, show (p!"]") = [93] from rfl]
    rw [e1, partition_eq List.not_mem_nil]
    simp only
    rw [partition_eq h93]
    simp only [Option.getD_some]
    rw [hport _ ?_]
    rw [hpart]
    unfold portText
    cases u.port <;> rfl
  · have h58 := hv
    have h91 : 91 ∉ u.hostText ++ u.portText := by
      intro hm
      rcases List.mem_append.1 hm with hm | hm
      · rw [hostText, if_neg (by simp [hv])] at hm
        exact clean_not_mem h.host.2.1 (.inl (by decide)) hm
      · have := portText_mem hm
        omega
    rw [partition_none.2 h91]
    simp only
    have e1 : (partition 58 (u.hostText ++ u.portText)).getD (u.hostText ++ u.portText, []) =
        (u.host, match u.port with | none => [] | some n => decStr n) := by
      rw [hostText, if_neg (by simp [hv]), portText]
      cases u.port with
      | none => simp [partition_none.2 h58]
      | some n =>
        have := partition_eq (b := decStr n) h58
        simp [show (p!":") = [58] from rfl, this]
    rw [e1]
    simp only
    rw [hport _ rfl]

theorem userinfo {u : Parts} {secure : Bool} (h : u.Wf secure) (p : Split) (hp : p.netloc = u.netloc) :
    p.userinfo = u.user.map fun q => (q.1, some q.2) := by
  unfold Split.userinfo
  rw [hp, rpartition_netloc h]
  cases hu : u.user with
  | none => rfl
  | some q =>
    have h58 : 58 ∉ q.1 := clean_not_mem (h.user q.1 q.2 hu).1 (.inl (by decide))
    have := partition_eq (b := q.2) h58
    simp [show (p!":") = [58] from rfl, this]

theorem splitOn_head {c x : Nat} {s : PyStr} (h : s.head? = some x) (hx : x ≠ c) :
    ∃ t ps, splitOn c s = (x :: t) :: ps := by
  cases s with
  | nil => cases h
  | cons y ys =>
    cases h
    simp only [splitOn, if_neg hx]
    split
    · exact ⟨[], [], rfl⟩
    · rename_i p ps _
      exact ⟨p, ps, rfl⟩

theorem hextetsOk_head {p : PyStr} {ps : List PyStr} (hp : p ≠ []) (h : hextetsOk (p :: ps) = true) :
    isHextet p = true := by
  unfold hextetsOk at h
  split at h
  · simp only [List.all_cons, Bool.and_eq_true] at h
    exact h.2.1
  · rename_i skip hs
    have h1 : 1 ≤ skip := by
      have : skip ∈ skips (p :: ps) := by rw [hs]; simp
      unfold skips at this
      rw [List.mem_filter] at this
      have := this.2
      simp only [Bool.and_eq_true, decide_eq_true_eq] at this
      exact this.1.1
    simp only [List.head?_cons, Option.some.injEq, hp, if_false, Bool.and_eq_true] at h
    obtain ⟨k, rfl⟩ : ∃ k, skip = k + 1 := ⟨skip - 1, by omega⟩
    have := h.1.2
    rw [List.take_succ_cons, List.all_cons, Bool.and_eq_true] at this
    exact this.1
  · cases h

theorem isIPv6Addr_head {s : PyStr} {x : Nat} (h : isIPv6Addr s = true) (hx : s.head? = some x) :
    x = 58 ∨ isHexDigit x = true := by
  by_cases hc : x = 58
  · exact .inl hc
  right
  obtain ⟨t, ps, hp⟩ := splitOn_head hx hc
  unfold isIPv6Addr at h
  rw [hp] at h
  simp only at h
  split at h
  · cases h
  · rename_i hlen
    have key : ∀ ps', hextetsOk ((x :: t) :: ps') = true → isHexDigit x = true := by
      intro ps' hk
      have := hextetsOk_head (List.cons_ne_nil _ _) hk
      simp only [isHextet, Bool.and_eq_true, List.all_cons] at this
      exact this.1.2.1
    split at h
    · cases h
    · rename_i parts he
      rw [Bool.and_eq_true] at h
      unfold expandV4 at he
      split at he
      · cases he
        exact key _ h.2
      · split at he
        · split at he
          · cases he
            cases ps with
            | nil => simp at hlen
            | cons q qs =>
              have := h.2
              rw [List.dropLast_cons_of_ne_nil (List.cons_ne_nil _ _)] at this
              exact key _ this
          · cases he
        · cases he
          exact key _ h.2

theorem bracketedOk_v6 {s : PyStr} (h : isV6 s = true) : bracketedOk s = true := by
  unfold bracketedOk
  split
  · rename_i rest
    exfalso
    simp only [isV6, isIPv6, Bool.and_eq_true] at h
    replace h := h.2.2
    split at h
    · have := isIPv6Addr_head h rfl
      revert this
      decide
    · rename_i addr scope hp
      simp only [Bool.and_eq_true] at h
      obtain ⟨hs, -⟩ := partition_some.1 hp
      cases addr with
      | nil => cases hs
      | cons y ys =>
        have hy : y = 118 := by
          cases hs
          rfl
        subst hy
        have := isIPv6Addr_head h.2 rfl
        revert this
        decide
  · exact h

theorem netloc_ok (env : Env) {u : Parts} {secure : Bool} (h : u.Wf secure) : netlocOk env u.netloc = true := by
  have hasc : isAscii u.netloc = true := isAscii_iff.2 fun c hc => by
    have := netloc_mem h hc
    omega
  have hu91 : 91 ∉ u.userText := fun hm => (userText_mem h hm).2.2 (by decide)
  have hu93 : 93 ∉ u.userText := fun hm => (userText_mem h hm).2.2 (by decide)
  have hp : ∀ c, 58 < c → c ∉ u.portText := by
    intro c hc hm
    have := portText_mem hm
    omega
  unfold netlocOk
  rw [hasc, Bool.true_or, Bool.and_true]
  by_cases hv : 58 ∈ u.host
  · have h93 : 93 ∉ u.host := clean_not_mem h.host.2.1 (.inl (by decide))
    have e1 : u.netloc = u.userText ++ 91 :: (u.host ++ 93 :: u.portText) := by
      simp [netloc, hostText, hv, show (p!"[") = [91] from rfl, show (p!"]") = [93] from rfl]
    rw [e1, partition_eq hu91]
    simp only
    rw [partition_eq h93]
    simp only
    rw [if_pos (by simp)]
    exact bracketedOk_v6 (isV6_iff.2 (.inl (h.host.2.2 hv)))
  · have key : ∀ c, c = 91 ∨ c = 93 → u.netloc.contains c = false := by
      intro c hc
      rw [← Bool.not_eq_true, List.contains_iff_mem]
      unfold netloc
      rw [hostText, if_neg (by simp [hv])]
      have : c ∉ u.host := clean_not_mem h.host.2.1 (.inl (by rcases hc with rfl | rfl <;> decide))
      have h3 := hp c (by omega)
      rcases hc with rfl | rfl <;> simp_all
    rw [key 91 (.inl rfl), key 93 (.inr rfl)]
    rfl

end Spec.Parts

/-- **C64.** `parse_uri` recovers the components of every well-formed WebSocket URI; the host is converted
to lower case, the port defaults to 80 or 443 and the path to a slash. -/
theorem C64_parse (env : Env) (u : Spec.Parts) (secure : Bool) (h : u.Wf secure) :
    parseUri env u.text = .ok
      { secure
        host := pyLower u.host
        port := u.port.getD (if secure then 443 else 80)
        resourceName := (if u.path = [] then p!"/" else u.path) ++
          (match u.query with
            | none | some [] => []
            | some q => p!"?" ++ q)
        userInfo := u.user } := by
  obtain ⟨c58, csc, x, t, hx, halpha, hall⟩ := scheme_cases h.scheme
  have hpath := h.path.1
  have hq35 : 35 ∉ u.queryText ∧ ∀ c ∈ u.queryText, 32 < c ∧ c < 127 := by
    unfold Spec.Parts.queryText
    split
    · simp
    · rename_i q hq
      have hq := h.query q hq
      constructor
      · simp only [show (p!"?") = [63] from rfl, List.cons_append, List.nil_append, List.mem_cons, not_or]
        exact ⟨by omega, clean_not_mem hq (.inl (by decide))⟩
      · intro c hc
        rcases List.mem_append.1 hc with hc | hc
        · simp only [show (p!"?") = [63] from rfl, List.mem_singleton] at hc
          omega
        · exact ⟨(hq c hc).1, (hq c hc).2.1⟩
  have htext : u.text = u.scheme ++ 58 :: 47 :: 47 :: (u.netloc ++ (u.path ++ u.queryText)) := by
    simp [Spec.Parts.text, Spec.Parts.netloc, show (p!"://") = [58, 47, 47] from rfl]
  have hchars : ∀ c ∈ u.text, 32 < c ∧ c < 127 := by
    intro c hc
    rw [htext] at hc
    simp only [List.mem_append, List.mem_cons] at hc
    rcases hc with hc | rfl | rfl | rfl | hc | hc | hc
    · exact csc c hc
    · omega
    · omega
    · omega
    · have := Spec.Parts.netloc_mem h hc
      omega
    · exact ⟨(hpath c hc).1, (hpath c hc).2.1⟩
    · exact hq35.2 c hc
  have hclean : cleanUrl u.text = u.text := by
    unfold cleanUrl
    have h1 : u.text.dropWhile (fun c => decide (c ≤ 32)) = u.text := by
      have : ∀ l : PyStr, (∀ c ∈ l, 32 < c ∧ c < 127) → l.dropWhile (fun c => decide (c ≤ 32)) = l := by
        intro l hl
        cases l with
        | nil => rfl
        | cons y ys =>
          have := hl y (List.mem_cons_self ..)
          rw [List.dropWhile_cons_of_neg]
          simp only [decide_eq_true_eq]
          omega
      exact this _ hchars
    rw [h1, List.filter_eq_self]
    intro c hc
    have := hchars c hc
    simp only [ne_eq, decide_eq_true_eq]
    omega
  have hsch : splitScheme u.text = (pyLower u.scheme, 47 :: 47 :: (u.netloc ++ (u.path ++ u.queryText))) := by
    unfold splitScheme
    rw [htext, partition_eq c58, hx]
    simp only
    rw [hx] at hall
    rw [halpha, hall]
    rfl
  have hnet : splitAuthority (47 :: 47 :: (u.netloc ++ (u.path ++ u.queryText))) =
      (u.netloc, u.path ++ u.queryText) := by
    have hs := takeWhile_stop (p := fun c => decide (c ≠ 47 ∧ c ≠ 63 ∧ c ≠ 35)) (a := u.netloc)
      (b := u.path ++ u.queryText) (fun c hc => by
        have := Spec.Parts.netloc_mem h hc
        simp only [decide_eq_true_eq]
        omega) (fun c hc => by
        have : c = 47 ∨ c = 63 := by
          rcases h.path.2 with hp | hp
          · rw [hp, List.nil_append] at hc
            unfold Spec.Parts.queryText at hc
            split at hc
            · cases hc
            · cases hc
              exact .inr rfl
          · left
            cases hpp : u.path with
            | nil => rw [hpp] at hp; cases hp
            | cons y ys =>
              rw [hpp] at hp hc
              cases hp
              cases hc
              rfl
        simp only [decide_eq_false_iff_not]
        omega)
    unfold splitAuthority
    simp only [splitNetloc]
    rw [hs.1, hs.2]
  have hp35 : partition 35 (u.path ++ u.queryText) = none := by
    rw [partition_none, List.mem_append, not_or]
    exact ⟨clean_not_mem hpath (.inl (by decide)), hq35.1⟩
  have h63 : 63 ∉ u.path := clean_not_mem hpath (.inl (by decide))
  have hp63 : (partition 63 (u.path ++ u.queryText)).getD (u.path ++ u.queryText, []) =
      (u.path, u.query.getD []) := by
    unfold Spec.Parts.queryText
    cases u.query with
    | none => simp [partition_none.2 h63]
    | some q =>
      have := partition_eq (b := q) h63
      simp [show (p!"?") = [63] from rfl, this]
  have hsplit : urlsplit env u.text = some
      { scheme := pyLower u.scheme, netloc := u.netloc, path := u.path, query := u.query.getD [], fragment := [] } := by
    unfold urlsplit
    rw [hclean, hsch]
    simp only
    rw [hnet]
    simp only
    rw [if_pos (Spec.Parts.netloc_ok env h), hp35]
    simp only [Option.getD_none]
    rw [hp63]
  have hasc : isAscii u.text = true := isAscii_iff.2 fun c hc => by
    have := hchars c hc
    omega
  have hhasc : isAscii u.host = true := isAscii_iff.2 fun c hc => by
    have := h.host.2.1 c hc
    omega
  have h37 : 37 ∉ u.host := clean_not_mem h.host.2.1 (.inl (by decide))
  unfold parseUri
  rw [hsplit]
  generalize hS : Split.mk (pyLower u.scheme) u.netloc u.path (u.query.getD []) [] = S
  have hS1 : S.netloc = u.netloc := by rw [← hS]
  have hS2 : S.scheme = if secure then p!"wss" else p!"ws" := by rw [← hS]; exact h.scheme
  have hS3 : S.path = u.path := by rw [← hS]
  have hS4 : S.query = u.query.getD [] := by rw [← hS]
  have hS5 : S.fragment = [] := by rw [← hS]
  have hi := Spec.Parts.hostinfo h S hS1
  have hui := Spec.Parts.userinfo h S hS1
  have hhost : S.hostname env = some (pyLower u.host) := by
    unfold Split.hostname
    rw [hi]
    simp only
    rw [if_neg h.host.1, partition_none.2 h37]
    simp only [lowerStr, hhasc, if_true]
  have hport : S.port = some u.port := by
    unfold Split.port
    rw [hi]
    cases hp : u.port with
    | none => rfl
    | some n =>
      have := h.port n hp
      obtain ⟨d1, d2⟩ := digitsValue_decStr n
      simp only [Option.map_some]
      rw [d1, d2, Bool.true_and, if_pos (by simp; omega)]
  simp only
  rw [if_neg (by rw [hS2]; cases secure <;> simp), if_neg (by simp [hS5]), hhost]
  simp only
  rw [hport]
  simp only
  have hpeq : (match u.port with
      | none | some 0 => if decide (S.scheme = p!"wss") then 443 else 80
      | some n => n) = u.port.getD (if secure then 443 else 80) := by
    cases hp : u.port with
    | none =>
      rw [hS2]
      cases secure <;> rfl
    | some n =>
      have := h.port n hp
      cases n with
      | zero => omega
      | succ n => rfl
  have hseq : decide (S.scheme = p!"wss") = secure := by
    rw [hS2]
    cases secure <;> rfl
  have hreq : (if S.query ≠ [] then (if S.path = [] then p!"/" else S.path) ++ p!"?" ++ S.query
      else if S.path = [] then p!"/" else S.path) = (if u.path = [] then p!"/" else u.path) ++
      (match u.query with
        | none | some [] => []
        | some q => p!"?" ++ q) := by
    rw [hS3, hS4]
    cases u.query with
    | none => simp
    | some q =>
      cases q with
      | nil => simp
      | cons y ys => simp
  rw [hui]
  cases hu : u.user with
  | none =>
    simp only [Option.map_none]
    rw [if_pos hasc, hseq, hreq]
    rw [hseq] at hpeq
    congr 2
  | some q =>
    simp only [Option.map_some]
    rw [if_pos hasc, hseq, hreq]
    rw [hseq] at hpeq
    congr 2

/-- A URI with all components, and its text -/
example : Spec.Parts.text { scheme := p!"WSS", user := some (p!"a", p!"b:c@d"), host := p!"FE80::1", port := some 8443,
                            path := p!"/chat", query := some p!"x=1?2" } =
    p!"WSS://a:b:c@d@[FE80::1]:8443/chat?x=1?2" := by decide +kernel

example : Spec.Parts.Wf { scheme := p!"WSS", user := some (p!"a", p!"b:c@d"), host := p!"FE80::1", port := some 8443,
                          path := p!"/chat", query := some p!"x=1?2" } true where
  scheme := by decide +kernel
  user := by
    rintro a b h
    cases h
    unfold Spec.Parts.Clean
    decide +kernel
  host := by
    refine ⟨by decide, ?_, fun _ => isIPv6Addr_iff.1 (by decide +kernel)⟩
    unfold Spec.Parts.Clean
    decide +kernel
  port := by
    rintro n h
    cases h
    decide
  path := by
    unfold Spec.Parts.Clean
    decide +kernel
  query := by
    rintro q h
    cases h
    unfold Spec.Parts.Clean
    decide +kernel

/-! ## Percent encoding -/

/-- RFC 3986, 2.1: the value of a hexadecimal digit -/
def Spec.hexValue (c : Nat) : Option Nat :=
  if 48 ≤ c ∧ c ≤ 57 then some (c - 48) else if 65 ≤ c ∧ c ≤ 70 then some (c - 55) else none

/-- RFC 3986, 2.1: the bytes that a string represents -/
def Spec.percentDecode : PyStr → Option Bytes
  | [] => some []
  | 37 :: a :: b :: rest =>
    match Spec.hexValue a, Spec.hexValue b, Spec.percentDecode rest with
    | some x, some y, some bs => some (UInt8.ofNat (16 * x + y) :: bs)
    | _, _, _ => none
  | 37 :: _ => none
  | c :: rest => (Spec.percentDecode rest).map (UInt8.ofNat c :: ·)

/-- **C64.** The conversion of IRIs to URIs loses nothing: the result of `quote` represents the UTF-8
encoding of its argument. -/
theorem C64_quote {s r : PyStr} (h : quote s = .ok r) :
    ∃ bs, utf8Encode s = .ok bs ∧ Spec.percentDecode r = some bs := by
  unfold quote at h
  split at h
  · cases h
  · rename_i bs hb
    cases h
    refine ⟨bs, hb, ?_⟩
    clear hb
    have hv : ∀ n, n < 16 → Spec.hexValue (hexUpper n) = some n := by decide +kernel
    induction bs with
    | nil => rfl
    | cons b bs ih =>
      rw [List.flatMap_cons]
      have hlt := b.toNat_lt
      by_cases hs : isSafe b.toNat = true
      · rw [if_pos hs, List.singleton_append]
        have hne : b.toNat ≠ 37 := by
          intro he
          rw [he] at hs
          exact absurd hs (by decide +kernel)
        have : Spec.percentDecode (b.toNat :: bs.flatMap fun b =>
            if isSafe b.toNat then [b.toNat] else [37, hexUpper (b.toNat / 16), hexUpper (b.toNat % 16)]) =
            (Spec.percentDecode (bs.flatMap fun b =>
              if isSafe b.toNat then [b.toNat] else [37, hexUpper (b.toNat / 16), hexUpper (b.toNat % 16)])).map
                (UInt8.ofNat b.toNat :: ·) := by
          exact Spec.percentDecode.eq_4 _ _ (fun _ _ _ h _ => hne h) (fun h => hne h)
        rw [this, ih]
        simp
      · rw [if_neg hs]
        simp only [List.cons_append, List.nil_append]
        rw [Spec.percentDecode, hv _ (by omega), hv _ (by omega), ih]
        simp only [Option.some.injEq, List.cons.injEq, and_true]
        rw [show 16 * (b.toNat / 16) + b.toNat % 16 = b.toNat from by omega]
        simp

example : quote p!"/é%20" = .ok p!"/%C3%A9%2520" := by decide +kernel

end WS.Uri
