import Verif.Model.BytesLike
import Verif.Props.Frames

/-!
# C98: any bytes-like object is sent as its bytes
-/

namespace WS.BytesLike

open WS.Spec

namespace Spec

/-- A `memoryview` that Python can create: every item has the size that the format says, which is positive. -/
def Wf : Data → Prop
  | .bytes _ | .bytearray _ => True
  | .view v => 0 < v.fmt.size ∧ ∀ x ∈ v.items, x.length = v.fmt.size

/-- The number of bytes is the number of items. -/
def ByteSized : Data → Prop
  | .bytes _ | .bytearray _ => True
  | .view v => v.items = [] ∨ v.fmt.size = 1

/-- Iterating over the object gives its bytes, as integers: the items are unsigned bytes, or signed bytes that aren't negative. -/
def ByteValued : Data → Prop
  | .bytes _ | .bytearray _ => True
  | .view v => v.items = [] ∨ v.fmt = .int false 1 ∨ v.fmt = .int true 1 ∧ ∀ x ∈ v.items.flatten, x.toNat < 128

def Contiguous : Data → Prop
  | .bytes _ | .bytearray _ => True
  | .view v => v.contiguous = true

/-- The unfragmented message or the frame that contains the bytes of the object -/
def frameOf (fin : Bool) (opcode : Opcode) (data : Bytes) : Frame := { fin, opcode, data }

/-- "Any bytes-like object is sent as its bytes": the bytes that are written are those that RFC 6455 requires. -/
def SentAs (impl : Option C.Target) (key : Option Bytes) (x : Data) (payload : Bytes) : Prop :=
  ∃ w, send impl key x = .ok w ∧ WireWith true key (frameOf true .binary payload) w

end Spec

open Spec

theorem check_frameOf {opcode : Opcode} (ho : opcode.isCtrl = false) (fin : Bool) (d : Bytes) :
    (frameOf fin opcode d).check = .ok () := by
  simp [Frame.check, frameOf, ho]

theorem Data.toBytes_length {x : Data} (h : Wf x) : x.len ≤ x.toBytes.length ∧ (x.len = x.toBytes.length ↔ ByteSized x) := by
  cases x with
  | bytes b => simp [Data.len, Data.toBytes, ByteSized]
  | bytearray b => simp [Data.len, Data.toBytes, ByteSized]
  | view v =>
    obtain ⟨hp, h⟩ := h
    have e : v.items.flatten.length = v.fmt.size * v.items.length := by
      clear hp
      generalize v.items = l at h
      induction l with
      | nil => simp
      | cons a l ih =>
        rw [List.flatten_cons, List.length_append, ih (fun x hx => h x (List.mem_cons_of_mem _ hx)),
          h a List.mem_cons_self, List.length_cons, Nat.mul_add]
        omega
    simp only [Data.len, Data.toBytes, ByteSized, e]
    constructor
    · exact Nat.le_mul_of_pos_left _ hp
    · constructor
      · intro h1
        rcases Nat.eq_zero_or_pos v.items.length with h0 | h0
        · exact .inl (List.length_eq_zero_iff.1 h0)
        · right
          have : 1 * v.items.length = v.fmt.size * v.items.length := by omega
          exact (Nat.eq_of_mul_eq_mul_right h0 this).symm
      · rintro (h1 | h1)
        · simp [h1]
        · simp [h1]

/-- The masking key and the payload, as they're sent -/
def body (key : Option Bytes) (p : Bytes) : Bytes :=
  match key with
  | none => p
  | some k => k ++ maskOctets k p

theorem frame_serialize {fin : Bool} {opcode : Opcode} (ho : opcode.isCtrl = false) {key : Option Bytes} {p : Bytes}
    (hkey : ∀ k, key = some k → k.length = 4) (hl : p.length < 2 ^ 64) :
    (frameOf fin opcode p).serialize key = .ok (header fin opcode key.isSome p.length ++ body key p) := by
  unfold Frame.serialize
  rw [check_frameOf ho]
  simp only [Frame.wire, header, body]
  rw [show (frameOf fin opcode p).data = p from rfl, if_pos hl,
    show (frameOf fin opcode p).head1 = (Frame.mk fin opcode [] false false false).head1 from rfl]
  cases key with
  | none => rfl
  | some k =>
    simp only [applyMask_eq (hkey k rfl), Option.isSome_some, if_true, List.append_assoc]

theorem maskItems_iff (k : Bytes) (i : Nat) (vs : List (Option Int)) (out : Bytes) :
    maskItems k i vs = .ok out ↔ ∃ p : Bytes, vs = p.map (fun x => some (x.toNat : Int)) ∧ out = maskFrom k i p := by
  induction vs generalizing i out with
  | nil =>
    simp only [maskItems, Except.ok.injEq]
    constructor
    · rintro rfl; exact ⟨[], rfl, rfl⟩
    · rintro ⟨p, h, rfl⟩
      cases p with
      | nil => rfl
      | cons a p => simp at h
  | cons v vs ih =>
    constructor
    · intro h
      rw [maskItems] at h
      cases hm : maskItem v (k.getD (i % 4) 0) with
      | error e => rw [hm] at h; cases h
      | ok x =>
        rw [hm] at h
        cases hr : maskItems k (i + 1) vs with
        | error e => rw [hr] at h; cases h
        | ok xs =>
          rw [hr] at h
          simp only [Except.ok.injEq] at h
          obtain ⟨p, e1, e2⟩ := (ih (i + 1) xs).1 hr
          cases v with
          | none => cases hm
          | some b =>
            rw [maskItem] at hm
            by_cases hb : 0 ≤ b ∧ b < 256
            · simp only [hb, and_self, if_true, Except.ok.injEq] at hm
              refine ⟨UInt8.ofNat b.toNat :: p, ?_, ?_⟩
              · rw [List.map_cons, ← e1]
                congr 2
                rw [UInt8.toNat_ofNat_of_lt' (by rw [UInt8.size]; omega)]
                omega
              · rw [← h, ← hm, e2, maskFrom]
            · simp only [hb, if_false, reduceCtorEq] at hm
    · rintro ⟨p, h, rfl⟩
      cases p with
      | nil => simp at h
      | cons a p =>
        simp only [List.map_cons, List.cons.injEq] at h
        have ha := a.toNat_lt
        have hb : (0 : Int) ≤ (a.toNat : Int) ∧ (a.toNat : Int) < 256 := by omega
        have hm : ∀ m, maskItem v m = .ok (a ^^^ m) := by
          intro m
          rw [h.1]
          simp only [maskItem, hb, and_self, if_true, Int.toNat_natCast, UInt8.ofNat_toNat]
        rw [maskItems, hm, (ih (i + 1) (maskFrom k (i + 1) p)).2 ⟨p, h.2, rfl⟩, maskFrom]

theorem Data.values_length (x : Data) : x.values.length = x.len := by
  cases x <;> simp [Data.values, Data.len]

/-- The payload that is sent is `p`; it may have more bytes than the header says. -/
inductive Payload (impl : Option C.Target) (key : Option Bytes) (x : Data) : Bytes → Prop where
  | plain : key = none → Contiguous x → Payload impl key x x.toBytes
  | c : key.isSome → impl.isSome → Payload impl key x x.toBytes
  | python (p : Bytes) : key.isSome → impl = none → x.values = p.map (fun b => some (b.toNat : Int)) → Payload impl key x p

theorem serialize_iff {impl : Option C.Target} {fin : Bool} {opcode : Opcode} {key : Option Bytes} {x : Data} {w : Bytes}
    (hkey : ∀ k, key = some k → k.length = 4) (hl : x.len < 2 ^ 64) :
    serialize impl fin opcode key x = .ok w ↔
      ∃ p, Payload impl key x p ∧ w = header fin opcode key.isSome x.len ++ body key p := by
  unfold serialize
  rw [if_pos hl]
  cases key with
  | none =>
    have hw : ∀ p, x.write = .ok p ↔ Contiguous x ∧ p = x.toBytes := by
      intro p
      cases x with
      | bytes b => simp [Data.write, Contiguous, Data.toBytes, eq_comm]
      | bytearray b => simp [Data.write, Contiguous, Data.toBytes, eq_comm]
      | view v => by_cases hc : v.contiguous = true <;> simp [Data.write, Contiguous, Data.toBytes, eq_comm, hc]
    constructor
    · intro h
      cases hx : x.write with
      | error e => rw [hx] at h; cases h
      | ok p =>
        rw [hx] at h
        simp only [Except.ok.injEq] at h
        obtain ⟨h1, rfl⟩ := (hw p).1 hx
        exact ⟨_, .plain rfl h1, h.symm⟩
    · rintro ⟨p, hp, rfl⟩
      cases hp with
      | plain _ h1 => rw [(hw _).2 ⟨h1, rfl⟩]; rfl
      | c h1 => cases h1
      | python p h1 => cases h1
  | some k =>
    have hk := hkey k rfl
    have hm : ∀ o, applyMask impl x k = .ok o ↔ ∃ p, Payload impl (some k) x p ∧ o = maskOctets k p := by
      intro o
      cases impl with
      | some t =>
        simp only [applyMask, C05_c_eq_python, applyMask_eq hk, Except.ok.injEq]
        constructor
        · rintro rfl; exact ⟨_, .c rfl rfl, rfl⟩
        · rintro ⟨p, hp, rfl⟩
          cases hp with
          | plain h1 => cases h1
          | c => rfl
          | python p h1 h2 => cases h2
      | none =>
        simp only [applyMask, hk, ne_eq, not_true_eq_false, if_false]
        rw [maskItems_iff]
        constructor
        · rintro ⟨p, h1, rfl⟩; exact ⟨p, .python p rfl rfl h1, maskFrom_zero _ _⟩
        · rintro ⟨p, hp, rfl⟩
          cases hp with
          | plain h1 => cases h1
          | c _ h2 => cases h2
          | python p _ _ h1 => exact ⟨p, h1, (maskFrom_zero _ _).symm⟩
    simp only
    constructor
    · intro h
      cases hx : applyMask impl x k with
      | error e => rw [hx] at h; cases h
      | ok o =>
        rw [hx] at h
        simp only [Except.ok.injEq] at h
        obtain ⟨p, h1, rfl⟩ := (hm o).1 hx
        exact ⟨p, h1, by rw [← h, body, List.append_assoc]; rfl⟩
    · rintro ⟨p, hp, rfl⟩
      rw [(hm _).2 ⟨p, hp, rfl⟩]
      simp [body]

theorem Payload.length_le {impl : Option C.Target} {key : Option Bytes} {x : Data} {p : Bytes} (h : Payload impl key x p)
    (hx : Wf x) : x.len ≤ p.length := by
  cases h with
  | plain => exact (Data.toBytes_length hx).1
  | c => exact (Data.toBytes_length hx).1
  | python p _ _ h => rw [← x.values_length, h]; simp

theorem body_append (key : Option Bytes) (a b : Bytes) :
    ∃ extra, body key (a ++ b) = body key a ++ extra ∧ extra.length = b.length ∧ (key = none → extra = b) := by
  cases key with
  | none => exact ⟨b, rfl, rfl, fun _ => rfl⟩
  | some k =>
    refine ⟨maskFrom k (0 + a.length) b, ?_, ?_, nofun⟩
    · simp only [body]
      rw [← maskFrom_zero, maskFrom_append, maskFrom_zero, List.append_assoc]
    · rw [maskFrom_eq_mapIdx, List.length_mapIdx]

theorem parse_frameOf {fin : Bool} {opcode : Opcode} (ho : opcode.isCtrl = false) {key : Option Bytes} {p w : Bytes}
    (hkey : ∀ k, key = some k → k.length = 4) (hl : p.length < 2 ^ 64) (rest : Bytes)
    (hw : (frameOf fin opcode p).serialize key = .ok w) :
    (Frame.parse key.isSome none).run ⟨w ++ rest, false⟩ = .done (frameOf fin opcode p) ⟨rest, false⟩ := by
  obtain ⟨w', h1, h2⟩ := C01_frame_roundtrip (frameOf fin opcode p) key none rest false (check_frameOf ho _ _) hl hkey nofun
  rw [hw] at h1
  cases h1
  exact h2

/-- **C98.** Whatever object is sent, the bytes that are written start with a binary frame, which the other side reads.  It has as
many bytes as the object has items: the bytes of a contiguous object, cut.  Any other byte is left in the input of the other side,
after the frame. -/
theorem C98_truncated {impl : Option C.Target} {key : Option Bytes} {x : Data} {w : Bytes} (hx : Wf x)
    (hkey : ∀ k, key = some k → k.length = 4) (hl : x.len < 2 ^ 64) (h : send impl key x = .ok w) :
    ∃ p extra, p.length = x.len ∧ extra.length + x.len = (if key.isSome ∧ impl = none then x.len else x.toBytes.length) ∧
      (key = none ∨ impl.isSome → p = x.toBytes.take x.len) ∧ (key = none → extra = x.toBytes.drop x.len) ∧
      ∀ rest, (Frame.parse key.isSome none).run ⟨w ++ rest, false⟩ = .done (frameOf true .binary p) ⟨extra ++ rest, false⟩ := by
  obtain ⟨q, hq, rfl⟩ := (serialize_iff hkey hl).1 h
  have hle := hq.length_le hx
  obtain ⟨extra, e1, e2, e3⟩ := body_append key (q.take x.len) (q.drop x.len)
  rw [List.take_append_drop] at e1
  have ht : (q.take x.len).length = x.len := by rw [List.length_take]; omega
  refine ⟨q.take x.len, extra, ht, ?_, ?_, ?_, ?_⟩
  · rw [e2, List.length_drop]
    cases hq with
    | plain h1 => rw [h1]; simp; have := (Data.toBytes_length hx).1; omega
    | c h1 h2 =>
      have := (Data.toBytes_length hx).1
      rw [if_neg (by rintro ⟨-, rfl⟩; cases h2)]; omega
    | python q h1 h2 h3 =>
      rw [if_pos ⟨h1, h2⟩]
      have : q.length = x.len := by rw [← x.values_length, h3, List.length_map]
      omega
  · intro hc
    cases hq with
    | plain => rfl
    | c => rfl
    | python q h1 h2 h3 =>
      rcases hc with rfl | hc
      · cases h1
      · rw [h2] at hc; cases hc
  · intro hk
    rw [e3 hk]
    cases hq with
    | plain => rfl
    | c => rfl
    | python q h1 => rw [hk] at h1; cases h1
  · intro rest
    rw [e1, ← List.append_assoc, List.append_assoc]
    refine parse_frameOf rfl hkey (by omega) _ ?_
    rw [frame_serialize rfl hkey (by omega), ht]

/-- Example: a server sends an array of two 16-bit integers. -/
example : ∃ w, send (some .sse2) none (.view ⟨.int false 2, [[1, 0], [2, 0]], true⟩) = .ok w ∧
    (Frame.parse false none).run ⟨w, false⟩ = .done (frameOf true .binary [1, 0]) ⟨[2, 0], false⟩ := by
  obtain ⟨p, extra, -, -, h3, h4, h5⟩ := C98_truncated (impl := some .sse2) (key := none)
    (x := .view ⟨.int false 2, [[1, 0], [2, 0]], true⟩) (by simp [Wf, Fmt.size]) nofun (by decide) rfl
  refine ⟨_, rfl, ?_⟩
  have := h5 []
  rw [h3 (.inl rfl), h4 rfl] at this
  exact this

theorem sentAs_iff {impl : Option C.Target} {key : Option Bytes} {x : Data} {b : Bytes} (hx : Wf x)
    (hkey : ∀ k, key = some k → k.length = 4) (hl : x.len < 2 ^ 64) (hb : b.length < 2 ^ 64) :
    SentAs impl key x b ↔ Payload impl key x b ∧ b.length = x.len := by
  constructor
  · rintro ⟨w, h1, h2⟩
    have h3 := (C02_serialize_iff_wire _ _ _).2 ⟨(Frame.check_ok_iff _).1 (check_frameOf rfl true b), hb, h2⟩
    obtain ⟨q, hq, rfl⟩ := (serialize_iff hkey hl).1 h1
    have hle := hq.length_le hx
    obtain ⟨extra, e1, e2, -⟩ := body_append key (q.take x.len) (q.drop x.len)
    rw [List.take_append_drop] at e1
    have ht : (q.take x.len).length = x.len := by rw [List.length_take]; omega
    have p1 := parse_frameOf rfl hkey hb [] h3
    have p2 : (Frame.parse key.isSome none).run ⟨(header true .binary key.isSome x.len ++ body key q) ++ [], false⟩ =
        .done (frameOf true .binary (q.take x.len)) ⟨extra ++ [], false⟩ := by
      rw [e1, ← List.append_assoc, List.append_assoc]
      refine parse_frameOf rfl hkey (by omega) _ ?_
      rw [frame_serialize rfl hkey (by omega), ht]
    rw [p1] at p2
    simp only [Outcome.done.injEq, Reader.mk.injEq, List.append_nil, and_true] at p2
    obtain ⟨p3, p4⟩ := p2
    have p5 : b = q.take x.len := congrArg Frame.data p3
    have p6 : q.length = x.len := by
      rw [← p4, List.length_nil, List.length_drop] at e2
      omega
    rw [List.take_of_length_le (by omega)] at p5
    rw [p5]
    exact ⟨hq, p6⟩
  · rintro ⟨h1, h2⟩
    have h3 := frame_serialize (fin := true) (opcode := .binary) rfl hkey hb
    refine ⟨_, (serialize_iff hkey hl).2 ⟨b, h1, rfl⟩, ?_⟩
    rw [← h2]
    exact ((C02_serialize_iff_wire _ _ _).1 h3).2.2

theorem value_iff {f : Fmt} (hf : f.size = 1) {items : List Bytes} (h : ∀ x ∈ items, x.length = 1) :
    items.map f.value = items.flatten.map (fun b => some (b.toNat : Int)) ↔
      items = [] ∨ f = .int false 1 ∨ f = .int true 1 ∧ ∀ x ∈ items.flatten, x.toNat < 128 := by
  induction items with
  | nil => simp
  | cons x items ih =>
    have hx := h x List.mem_cons_self
    have ih := ih fun y hy => h y (List.mem_cons_of_mem _ hy)
    match x, hx with
    | [b], _ =>
      have hb := b.toNat_lt
      cases f with
      | char => simp [Fmt.value]
      | other n => simp [Fmt.value]
      | int signed n =>
        simp only [Fmt.size] at hf
        subst hf
        cases signed with
        | false =>
          simp only [List.map_cons, List.flatten_cons, List.cons_append, List.nil_append, List.cons.injEq, true_or, or_true,
            iff_true]
          exact ⟨by simp [Fmt.value, C.loadLE], ih.2 (.inr (.inl rfl))⟩
        | true =>
          have e : Fmt.value (.int true 1) [b] = some (b.toNat : Int) ↔ b.toNat < 128 := by
            simp only [Fmt.value, C.loadLE, Option.some.injEq, Nat.mul_zero, Nat.add_zero, Nat.pow_one]
            by_cases h2 : 2 * b.toNat < 256
            · rw [if_pos h2]; omega
            · rw [if_neg h2]; omega
          simp only [List.map_cons, List.flatten_cons, List.cons_append, List.nil_append, List.cons.injEq, e, ih]
          simp only [reduceCtorEq, Fmt.int.injEq, Bool.true_eq_false, false_and, true_and, false_or, List.mem_cons,
            forall_eq_or_imp, and_self]
          constructor
          · rintro ⟨h1, h2 | h2⟩
            · exact ⟨h1, by simp [h2]⟩
            · exact ⟨h1, h2⟩
          · rintro ⟨h1, h2⟩
            exact ⟨h1, .inr h2⟩

theorem values_iff {x : Data} (hx : Wf x) : x.values = x.toBytes.map (fun b => some (b.toNat : Int)) ↔ ByteValued x := by
  cases x with
  | bytes b => simp [Data.values, Data.toBytes, ByteValued]
  | bytearray b => simp [Data.values, Data.toBytes, ByteValued]
  | view v =>
    have hlen := (Data.toBytes_length hx).2
    obtain ⟨hp, hx⟩ := hx
    constructor
    · intro h
      have h1 := congrArg List.length h
      rw [Data.values_length, List.length_map] at h1
      rcases hlen.1 h1 with h2 | h2
      · exact .inl h2
      · exact (value_iff h2 (fun y hy => (hx y hy).trans h2)).1 h
    · intro h
      rcases h with h | h
      · simp [Data.values, Data.toBytes, h]
      · have h2 : v.fmt.size = 1 := by
          rcases h with h | ⟨h, -⟩ <;> rw [h] <;> rfl
        exact (value_iff h2 (fun y hy => (hx y hy).trans h2)).2 (.inr h)

/-- **C98.** Exactly these objects are sent as their bytes.  On servers, contiguous objects whose items have one byte.  On
clients, with speedups.c, objects whose items have one byte; with utils.py, objects whose items are integers between 0 and 255, of one
byte. -/
theorem C98_exactly {impl : Option C.Target} {key : Option Bytes} {x : Data} (hx : Wf x)
    (hkey : ∀ k, key = some k → k.length = 4) (hl : x.toBytes.length < 2 ^ 64) :
    SentAs impl key x x.toBytes ↔
      (key = none → Contiguous x ∧ ByteSized x) ∧ (key ≠ none → impl ≠ none → ByteSized x) ∧
      (key ≠ none → impl = none → ByteValued x) := by
  have hlen := Data.toBytes_length hx
  rw [sentAs_iff hx hkey (by omega) hl]
  constructor
  · rintro ⟨h1, h2⟩
    have hs := hlen.2.1 h2.symm
    cases h1 with
    | plain h3 h4 => exact ⟨fun _ => ⟨h4, hs⟩, fun h => absurd h3 h, fun h => absurd h3 h⟩
    | c h3 h4 => exact ⟨fun h => by (rw [h] at h3; cases h3), fun _ _ => hs, fun _ h => by (rw [h] at h4; cases h4)⟩
    | python _ h3 h4 h5 =>
      exact ⟨fun h => by (rw [h] at h3; cases h3), fun _ _ => hs, fun _ _ => (values_iff hx).1 h5⟩
  · rintro ⟨h1, h2, h3⟩
    cases key with
    | none => exact ⟨.plain rfl (h1 rfl).1, (hlen.2.2 (h1 rfl).2).symm⟩
    | some k =>
      cases impl with
      | some t => exact ⟨.c rfl rfl, (hlen.2.2 (h2 nofun nofun)).symm⟩
      | none =>
        have h4 := (values_iff hx).2 (h3 nofun rfl)
        exact ⟨.python _ rfl rfl h4, by rw [← x.values_length, h4, List.length_map]⟩

/-- Example: a client sends a slice of signed bytes, with a step. -/
example : SentAs (some .sse2) (some [1, 2, 3, 4]) (.view ⟨.int true 1, [[255], [1]], false⟩) [255, 1] ∧
    ¬SentAs none (some [1, 2, 3, 4]) (.view ⟨.int true 1, [[255], [1]], false⟩) [255, 1] ∧
    ¬SentAs none none (.view ⟨.int true 1, [[255], [1]], false⟩) [255, 1] := by
  have hx : Wf (.view ⟨.int true 1, [[255], [1]], false⟩) := by simp [Wf, Fmt.size]
  refine ⟨(C98_exactly hx (by simp) (by decide)).2 ?_, fun h => ?_, fun h => ?_⟩
  · exact ⟨nofun, fun _ _ => .inr rfl, nofun⟩
  · rcases ((C98_exactly hx (by simp) (by decide)).1 h).2.2 nofun rfl with h | h | ⟨-, h⟩
    · cases h
    · cases h
    · exact absurd (h 255 (by simp)) (by decide)
  · cases (((C98_exactly hx (by simp) (by decide)).1 h).1 rfl).1

/-- **C98, partial.** `bytes` and `bytearray` objects, and contiguous `memoryview` objects that contain unsigned bytes, are sent as
their bytes: by clients and servers, with speedups.c and with utils.py.  Missing: other `memoryview` objects, which `send` accepts as
well; see `C98_exactly`. -/
theorem C98_bytes_partial {impl : Option C.Target} {key : Option Bytes} {x : Data} (hx : Wf x) (hc : Contiguous x)
    (hf : ∀ v, x = .view v → v.fmt = .int false 1) (hkey : ∀ k, key = some k → k.length = 4)
    (hl : x.toBytes.length < 2 ^ 64) : SentAs impl key x x.toBytes := by
  have h1 : ByteSized x := by
    cases x with
    | view v => exact .inr (by rw [hf v rfl]; rfl)
    | _ => trivial
  have h2 : ByteValued x := by
    cases x with
    | view v => exact .inr (.inl (hf v rfl))
    | _ => trivial
  exact (C98_exactly hx hkey hl).2 ⟨fun _ => ⟨hc, h1⟩, fun _ _ => h1, fun _ _ => h2⟩

/-- Example: five bytes, with `utils.py` -/
example : SentAs none (some [1, 2, 3, 4]) (.view ⟨.int false 1, [[7], [8], [255], [0], [9]], true⟩) [7, 8, 255, 0, 9] :=
  C98_bytes_partial (x := .view ⟨.int false 1, [[7], [8], [255], [0], [9]], true⟩) (by simp [Wf, Fmt.size]) rfl
    (by rintro v h; cases h; rfl) (by simp) (by decide)

/-! ## What isn't true -/

/-- "Any object that `prepare_data` accepts is sent as its bytes" -/
def Sent : Prop :=
  ∀ (impl : Option C.Target) (key : Option Bytes) (x : Data), Wf x → (∀ k, key = some k → k.length = 4) →
    x.toBytes.length < 2 ^ 64 → SentAs impl key x x.toBytes

def pairs : Bytes → List Bytes
  | a :: b :: rest => [a, b] :: pairs rest
  | _ => []

theorem pairs_spec (n : Nat) (l : Bytes) (h : l.length = 2 * n) :
    (pairs l).length = n ∧ (pairs l).flatten = l ∧ ∀ x ∈ pairs l, x.length = 2 := by
  induction n generalizing l with
  | zero =>
    cases l with
    | nil => simp [pairs]
    | cons => simp at h
  | succ n ih =>
    match l, h with
    | a :: b :: rest, h =>
      simp only [List.length_cons] at h
      have := ih rest (by omega)
      simpa [pairs] using this

/-- **C98, negative.** An array of 16-bit integers may contain frames.  When a server sends it, in one message, the other side reads a
message that contains its first half, and then these frames. -/
theorem C98_injection_false (impl : Option C.Target) (frames : Bytes) (hl : frames.length < 2 ^ 64) :
    ∃ v : View, v.fmt = .int false 2 ∧ v.contiguous = true ∧ Wf (.view v) ∧
      (Data.view v).toBytes = List.replicate frames.length 0 ++ frames ∧
      ∃ w, send impl none (.view v) = .ok w ∧ ∀ rest, (Frame.parse false none).run ⟨w ++ rest, false⟩ =
        .done (frameOf true .binary (List.replicate frames.length 0)) ⟨frames ++ rest, false⟩ := by
  obtain ⟨h1, h2, h3⟩ := pairs_spec frames.length (List.replicate frames.length 0 ++ frames) (by simp; omega)
  refine ⟨⟨.int false 2, pairs (List.replicate frames.length 0 ++ frames), true⟩, rfl, rfl, ⟨Nat.zero_lt_two, h3⟩, h2, ?_⟩
  have hw := (serialize_iff (impl := impl) (fin := true) (opcode := .binary) (key := none)
    (x := .view ⟨.int false 2, pairs (List.replicate frames.length 0 ++ frames), true⟩) (w := _) nofun
    (by simp only [Data.len]; omega)).2 ⟨_, .plain rfl rfl, rfl⟩
  refine ⟨_, hw, ?_⟩
  obtain ⟨p, extra, -, -, e3, e4, e5⟩ := C98_truncated
    (x := .view ⟨.int false 2, pairs (List.replicate frames.length 0 ++ frames), true⟩) ⟨Nat.zero_lt_two, h3⟩ (by simp)
    (by simp only [Data.len]; omega) hw
  intro rest
  have := e5 rest
  rw [e3 (.inl rfl), e4 rfl] at this
  have e6 : (Data.view ⟨.int false 2, pairs (List.replicate frames.length 0 ++ frames), true⟩).toBytes =
    List.replicate frames.length 0 ++ frames := h2
  have e7 : (Data.view ⟨.int false 2, pairs (List.replicate frames.length 0 ++ frames), true⟩).len = frames.length := h1
  rw [e6, e7, List.take_left' (by simp), List.drop_left' (by simp)] at this
  rw [e6, e7]
  exact this

/-- Example: the array contains a close frame with code 1000. -/
example : ∃ v : View, v.items.length = 4 ∧ ∃ w, send none none (.view v) = .ok w ∧
    (Frame.parse false none).run ⟨w ++ [], false⟩ =
      .done (frameOf true .binary [0, 0, 0, 0]) ⟨[0x88, 0x02, 0x03, 0xE8] ++ [], false⟩ := by
  obtain ⟨v, h1, -, h3, h4, w, h5, h6⟩ := C98_injection_false none [0x88, 0x02, 0x03, 0xE8] (by decide)
  refine ⟨v, ?_, w, h5, h6 []⟩
  have h7 := (Data.toBytes_length h3)
  obtain ⟨-, h3⟩ := h3
  have h8 : v.items.flatten.length = 8 := by rw [show v.items.flatten = _ from h4]; rfl
  rw [List.length_flatten, List.map_congr_left (g := fun _ => 2) (by intro x hx; rw [h3 x hx, h1]; rfl)] at h8
  simp only [List.map_const', List.sum_replicate_nat] at h8
  omega

/-- **C98, negative.** An array that contains one 16-bit integer isn't sent as its bytes. -/
theorem C98_sent_false : ¬Sent := by
  intro h
  have hx : Wf (.view ⟨.int false 2, [[1, 0]], true⟩) := by simp [Wf, Fmt.size]
  have := (((C98_exactly hx (by simp) (by decide)).1 (h none none _ hx (by simp) (by decide))).1 rfl).2
  rcases this with h | h <;> cases h

/-- **C98, negative.** With utils.py, a client sends an array of integers that are smaller than 256 as a message that contains one
byte per item; speedups.c and the server send other bytes. -/
theorem C98_python_false (n : Nat) (hn : 2 ≤ n) (p key : Bytes) (hp : p.length < 2 ^ 64) (hk : key.length = 4) :
    SentAs none (some key) (.view ⟨.int false n, p.map fun b => b :: List.replicate (n - 1) 0, true⟩) p := by
  have hz : ∀ m, C.loadLE (List.replicate m 0) = 0 := by
    intro m
    induction m with
    | zero => rfl
    | succ m ih => simp [List.replicate_succ, C.loadLE, ih]
  have hx : Wf (.view ⟨.int false n, p.map fun b => b :: List.replicate (n - 1) 0, true⟩) := by
    refine ⟨by simp only [Fmt.size]; omega, ?_⟩
    intro x hx
    obtain ⟨b, -, rfl⟩ := List.mem_map.1 hx
    simp only [Fmt.size, List.length_cons, List.length_replicate]
    omega
  refine (sentAs_iff hx (by simpa using hk) (by simpa [Data.len] using hp) hp).2
    ⟨.python p rfl rfl ?_, by simp [Data.len]⟩
  · simp [Data.values, Fmt.value, C.loadLE, hz, Function.comp_def]

/-- **C98, negative.** With utils.py, clients can't send items that aren't integers between 0 and 255: an exception is raised, unlike
with speedups.c.  Servers can't send objects that aren't contiguous. -/
theorem C98_raises_false :
    (∀ (v : View) (key : Bytes), key.length = 4 → v.items.length < 2 ^ 64 →
      (∃ x ∈ v.items, ∀ i, v.fmt.value x = some i → i < 0 ∨ 256 ≤ i) →
      (∃ e, send none (some key) (.view v) = .error e) ∧
      ∀ t, ∃ w, send (some t) (some key) (.view v) = .ok w) ∧
    (∀ (v : View) (impl : Option C.Target), v.contiguous = false → v.items.length < 2 ^ 64 →
      send impl none (.view v) = .error .bufferError) := by
  refine ⟨fun v key hk hl hx => ⟨?_, fun t => ?_⟩, fun v impl hc hl => ?_⟩
  · cases h : send none (some key) (.view v) with
    | error e => exact ⟨e, rfl⟩
    | ok w =>
      obtain ⟨p, hp, -⟩ := (serialize_iff (x := .view v) (by simpa using hk) hl).1 h
      obtain ⟨x, hx, hi⟩ := hx
      cases hp with
      | plain h1 => cases h1
      | c _ h2 => cases h2
      | python p _ _ h3 =>
        have h4 : v.fmt.value x ∈ (Data.view v).values := List.mem_map.2 ⟨x, hx, rfl⟩
        rw [h3] at h4
        obtain ⟨b, -, hb⟩ := List.mem_map.1 h4
        have := hi _ hb.symm
        have := b.toNat_lt
        omega
  · exact ⟨_, (serialize_iff (x := .view v) (by simpa using hk) hl).2 ⟨_, .c rfl rfl, rfl⟩⟩
  · simp [send, serialize, Data.len, hl, Data.write, hc]

theorem maskItems_error {k : Bytes} {i : Nat} {vs : List (Option Int)} {e : Err} (h : maskItems k i vs = .error e) :
    e = .exc .typeError ∧ none ∈ vs ∨
      e = .exc (.valueError p!"bytes must be in range(0, 256)") ∧ ∃ n, some n ∈ vs ∧ (n < 0 ∨ 256 ≤ n) := by
  induction vs generalizing i with
  | nil => cases h
  | cons v vs ih =>
    rw [maskItems] at h
    cases hm : maskItem v (k.getD (i % 4) 0) with
    | error e' =>
      rw [hm] at h
      cases h
      cases v with
      | none => cases hm; exact .inl ⟨rfl, List.mem_cons_self⟩
      | some b =>
        rw [maskItem] at hm
        by_cases hb : 0 ≤ b ∧ b < 256
        · simp only [hb, and_self, if_true, reduceCtorEq] at hm
        · simp only [hb, if_false, Except.error.injEq] at hm
          exact .inr ⟨hm.symm, b, List.mem_cons_self, by omega⟩
    | ok x =>
      rw [hm] at h
      cases hr : maskItems k (i + 1) vs with
      | ok xs => rw [hr] at h; cases h
      | error e' =>
        rw [hr] at h
        cases h
        rcases ih hr with ⟨h1, h2⟩ | ⟨h1, n, h2, h3⟩
        · exact .inl ⟨h1, List.mem_cons_of_mem _ h2⟩
        · exact .inr ⟨h1, n, List.mem_cons_of_mem _ h2, h3⟩

/-- **C98.** Sending an object raises only these exceptions: `BufferError` if it isn't contiguous, on servers; `TypeError` or
`ValueError` if its items aren't integers between 0 and 255, on clients that use utils.py. -/
theorem C98_errors {impl : Option C.Target} {key : Option Bytes} {x : Data} {e : Err}
    (hkey : ∀ k, key = some k → k.length = 4) (hl : x.len < 2 ^ 64) (h : send impl key x = .error e) :
    ∃ v, x = .view v ∧ (key = none ∧ e = .bufferError ∧ v.contiguous = false ∨
      key ≠ none ∧ impl = none ∧ e = .exc .typeError ∧ (∃ y ∈ v.items, v.fmt.value y = none) ∨
      key ≠ none ∧ impl = none ∧ e = .exc (.valueError p!"bytes must be in range(0, 256)") ∧
        ∃ y ∈ v.items, ∃ n, v.fmt.value y = some n ∧ (n < 0 ∨ 256 ≤ n)) := by
  simp only [send, serialize, if_pos hl] at h
  cases key with
  | none =>
    cases x with
    | bytes b => cases h
    | bytearray b => cases h
    | view v =>
      by_cases hc : v.contiguous = true
      · simp [Data.write, hc] at h
      · simp [Data.write, hc] at h
        exact ⟨v, rfl, .inl ⟨rfl, h.symm, by simpa using hc⟩⟩
  | some k =>
    have hk := hkey k rfl
    cases impl with
    | some t => simp [applyMask, C05_c_eq_python, applyMask_eq hk] at h
    | none =>
      simp only [applyMask, hk, ne_eq, not_true_eq_false, if_false] at h
      have hm : maskItems k 0 x.values = .error e := by
        cases hm : maskItems k 0 x.values with
        | error e' => rw [hm] at h; exact h
        | ok o => rw [hm] at h; cases h
      have hv := maskItems_error hm
      have hbytes : ∀ b : Bytes, ¬(e = .exc .typeError ∧ none ∈ b.map (fun c => some (c.toNat : Int)) ∨
          e = .exc (.valueError p!"bytes must be in range(0, 256)") ∧
            ∃ n, some n ∈ b.map (fun c => some (c.toNat : Int)) ∧ (n < 0 ∨ 256 ≤ n)) := by
        rintro b (⟨-, h1⟩ | ⟨-, n, h1, h2⟩)
        · obtain ⟨c, -, h1⟩ := List.mem_map.1 h1; cases h1
        · obtain ⟨c, -, h1⟩ := List.mem_map.1 h1
          cases h1
          have := c.toNat_lt
          omega
      cases x with
      | bytes b => exact absurd hv (hbytes b)
      | bytearray b => exact absurd hv (hbytes b)
      | view v =>
        refine ⟨v, rfl, .inr ?_⟩
        rcases hv with ⟨h1, h2⟩ | ⟨h1, n, h2, h3⟩
        · obtain ⟨y, hy, h2⟩ := List.mem_map.1 h2
          exact .inl ⟨nofun, rfl, h1, y, hy, h2⟩
        · obtain ⟨y, hy, h2⟩ := List.mem_map.1 h2
          exact .inr ⟨nofun, rfl, h1, y, hy, n, h2, h3⟩

/-- **C98.** A `memoryview` whose items are single bytes (format c) is sent as its bytes, except by clients that use utils.py,
which raise `TypeError` unless it's empty. -/
theorem C98_chars (impl : Option C.Target) (key : Option Bytes) (p : Bytes) (hkey : ∀ k, key = some k → k.length = 4)
    (hl : p.length < 2 ^ 64) :
    (key = none ∨ impl ≠ none → SentAs impl key (.view ⟨.char, p.map ([·]), true⟩) p) ∧
    (key ≠ none → impl = none → p ≠ [] → send impl key (.view ⟨.char, p.map ([·]), true⟩) = .error (.exc .typeError)) := by
  have hflat : (p.map ([·])).flatten = p := by
    induction p with
    | nil => rfl
    | cons b p ih => simp [ih (by simp only [List.length_cons] at hl; omega)]
  have hb : (Data.view ⟨.char, p.map ([·]), true⟩).toBytes = p := hflat
  have hw : Wf (.view ⟨.char, p.map ([·]), true⟩) :=
    ⟨Nat.one_pos, fun x hx => by obtain ⟨b, -, rfl⟩ := List.mem_map.1 hx; rfl⟩
  refine ⟨fun h => ?_, fun h1 h2 hp => ?_⟩
  · have := (C98_exactly (impl := impl) hw hkey (by rw [hb]; exact hl)).2
      ⟨fun _ => ⟨rfl, .inr rfl⟩, fun _ _ => .inr rfl, fun h1 h2 => absurd h2 (h.resolve_left h1)⟩
    rw [hb] at this
    exact this
  · subst h2
    cases key with
    | none => exact absurd rfl h1
    | some k =>
      cases p with
      | nil => exact absurd rfl hp
      | cons b p =>
        obtain ⟨e, he⟩ := (C98_raises_false.1 ⟨.char, (b :: p).map ([·]), true⟩ k (hkey k rfl) (by simpa using hl)
          ⟨[b], by simp, nofun⟩).1
        obtain ⟨v, hv, h | ⟨-, -, h, -⟩ | ⟨-, -, -, y, -, n, h, -⟩⟩ := C98_errors hkey (by simpa [Data.len] using hl) he
        · cases h.1
        · rw [he, h]
        · cases hv; cases h

/-- Example: three single bytes, on a client that uses speedups.c -/
example (t : C.Target) : SentAs (some t) (some [1, 2, 3, 4]) (.view ⟨.char, [[7], [0], [255]], true⟩) [7, 0, 255] :=
  (C98_chars (some t) (some [1, 2, 3, 4]) [7, 0, 255] (by simp) (by decide)).1 (.inr nofun)

/-- Example: -1 as a signed byte -/
example : send none (some [1, 2, 3, 4]) (.view ⟨.int true 1, [[255]], true⟩) =
    .error (.exc (.valueError p!"bytes must be in range(0, 256)")) := by decide +kernel

/-- Example: an array of floating-point numbers -/
example : (∃ e, send none (some [1, 2, 3, 4]) (.view ⟨.other 4, [[0, 0, 128, 63]], true⟩) = .error e) ∧
    ∀ t, ∃ w, send (some t) (some [1, 2, 3, 4]) (.view ⟨.other 4, [[0, 0, 128, 63]], true⟩) = .ok w :=
  C98_raises_false.1 ⟨.other 4, [[0, 0, 128, 63]], true⟩ [1, 2, 3, 4] rfl (by decide)
    ⟨_, List.mem_cons_self, nofun⟩

end WS.BytesLike
