import Verif.Lemmas.Identity
/-
C74: the router-id.
-/
namespace Babel
open Spec

/-- A router-id that is configured is used. -/
theorem C74_configured (o : Opts) (b : Boot) {id : Bytes} (h : o.routerId = some id) : chooseId o b = some id := by
  unfold chooseId
  rw [h]

/-- Otherwise, unless a random one is asked for, it is that of the first interface whose hardware address gives one, whether or not the daemon uses that interface. -/
theorem C74_hardware {o : Opts} {b : Boot} (hb : FairBoot b) (h : o.routerId = none) (hr : o.randomId = false) (id : Bytes) :
    chooseId o b = some id ↔ FirstGives b id ∨ (NoneGives b ∧ RandomId b id) := by
  rw [← clear_iff hb.2]
  unfold chooseId
  rw [h, hr]
  simp only [Bool.false_eq_true, if_false]
  cases hs : scanIds b 1 255 with
  | some x =>
    have hf := (scan_first hb.1).1 hs
    simp only [Option.some.injEq]
    constructor
    · rintro rfl
      exact .inl hf
    · rintro (h1 | ⟨h1, _⟩)
      · have := (scan_first hb.1).2 h1
        rw [hs] at this
        exact Option.some.inj this
      · rw [(scan_none hb.1).2 h1] at hs
        cases hs
  | none =>
    have hn := (scan_none hb.1).1 hs
    simp only [Option.map_eq_some_iff]
    constructor
    · rintro ⟨r, h1, h2⟩
      exact .inr ⟨hn, r, h1, h2.symm⟩
    · rintro (h1 | ⟨_, r, h1, h2⟩)
      · rw [(scan_first hb.1).2 h1] at hs
        cases hs
      · exact ⟨r, h1, h2.symm⟩

/-- One that is asked to be random has 8 bytes, all random except for the two lowest bits of the first, which are 0. -/
theorem C74_random {o : Opts} {b : Boot} (hb : FairBoot b) (h : o.routerId = none) (hr : o.randomId = true) (id : Bytes) :
    chooseId o b = some id ↔ RandomId b id := by
  rw [← clear_iff hb.2]
  unfold chooseId
  rw [h, hr]
  simp only [if_true, Option.map_eq_some_iff]
  exact ⟨fun ⟨r, h1, h2⟩ => ⟨r, h1, h2.symm⟩, fun ⟨r, h1, h2⟩ => ⟨r, h1, h2.symm⟩⟩

/-- There is always one, and unless a wrong one is configured it has 8 bytes. -/
theorem C74_some {o : Opts} {b : Boot} (hb : FairBoot b) (ho : ∀ id, o.routerId = some id → id.length = 8) :
    ∃ id, chooseId o b = some id ∧ id.length = 8 := by
  cases h : o.routerId with
  | some id => exact ⟨id, C74_configured o b h, ho id h⟩
  | none =>
    obtain ⟨r, h1, h2⟩ := hb.2
    match r, h2 with
    | x :: r, h2 =>
      have h2 : r.length + 1 = 8 := h2
      cases hr : o.randomId with
      | true =>
        obtain ⟨y, hy⟩ : ∃ y : UInt8, y.toNat = x.toNat / 4 * 4 := ⟨_, clear_low x⟩
        exact ⟨_, (C74_random hb h hr _).2 ⟨x, y, r, h1, rfl, hy⟩, h2⟩
      | false =>
        cases hs : scanIds b 1 255 with
        | some id =>
          have hf := (scan_first hb.1).1 hs
          refine ⟨id, (C74_hardware hb h hr id).2 (.inl hf), ?_⟩
          obtain ⟨i, _, _, ⟨hw, _, hg⟩, _⟩ := hf
          obtain ⟨a, q, rfl, h4, _⟩ := gives_head hg
          rw [List.length_cons, h4]
        | none => exact ⟨_, (C74_hardware hb h hr _).2 (.inr ⟨(scan_none hb.1).1 hs, x, _, r, h1, rfl, clear_low x⟩), h2⟩

/-- Hosts whose hardware addresses are of the same kind, and differ in the part that is used, get different router-ids. -/
theorem C74_distinct {g h : HwAddr} {id id' : Bytes} (hg : Gives g id) (hh : Gives h id') (hl : (usedPart g).length = (usedPart h).length)
    (hd : usedPart g ≠ usedPart h) : id ≠ id' := by
  rintro rfl
  obtain ⟨_, h1⟩ := hg
  obtain ⟨_, h2⟩ := hh
  generalize usedPart g = p at h1 hl hd
  generalize usedPart h = q at h2 hl hd
  unfold modifiedEui64 at h1 h2
  apply hd
  split at h1
  · split at h2
    · rw [← h1] at h2
      simp only [Option.some.injEq, List.cons.injEq, and_true, true_and] at h2
      obtain ⟨h3, rfl, rfl, rfl, rfl, rfl⟩ := h2
      rw [xor_two_inj h3]
    · exact absurd hl (by simp)
    · cases h2
  · split at h2
    · exact absurd hl (by simp)
    · rw [← h1] at h2
      simp only [Option.some.injEq, List.cons.injEq, and_true] at h2
      obtain ⟨h3, rfl, rfl, rfl, rfl, rfl, rfl, rfl⟩ := h2
      rw [xor_two_inj h3]
    · cases h2
  · cases h1

/-- An EUI-64 gives the router-id of a 48-bit address only if it is made from that address. -/
theorem C74_mixed {g h : HwAddr} {id : Bytes} (hg : Gives g id) (hh : Gives h id) (h6 : (usedPart g).length = 6) (h8 : (usedPart h).length = 8) :
    usedPart h = (usedPart g).take 3 ++ [0xFF, 0xFE] ++ (usedPart g).drop 3 := by
  obtain ⟨_, h1⟩ := hg
  obtain ⟨_, h2⟩ := hh
  generalize usedPart g = p at h1 h6
  generalize usedPart h = q at h2 h8
  match p, h6 with
  | [a, b, c, d, e, f], _ =>
    match q, h8 with
    | [a', b', c', d', e', f', g', i'], _ =>
      have h1 : some [a ^^^ 2, b, c, 0xFF, 0xFE, d, e, f] = some id := h1
      have h2 : some [a' ^^^ 2, b', c', d', e', f', g', i'] = some id := h2
      rw [← h1] at h2
      simp only [Option.some.injEq, List.cons.injEq, and_true] at h2
      obtain ⟨h3, rfl, rfl, rfl, rfl, rfl, rfl, rfl⟩ := h2
      rw [xor_two_inj h3]
      rfl

/-- A router-id made from hardware is not a random one, and it is neither all zeroes nor all ones. -/
theorem C74_kinds {h : HwAddr} {id : Bytes} (hg : Gives h id) :
    (∀ b, ¬ RandomId b id) ∧ id ≠ List.replicate 8 0 ∧ id ≠ List.replicate 8 0xFF := by
  obtain ⟨a, q, rfl, _, h2⟩ := gives_head hg
  refine ⟨?_, ?_, ?_⟩
  · rintro b ⟨x, y, r, _, h, h3⟩
    have h4 : a = y := (List.cons.inj h).1
    rw [h4] at h2
    omega
  · intro h
    have h3 : a = 0 := (List.cons.inj h).1
    rw [h3] at h2
    exact absurd h2 (by decide)
  · intro h
    have h3 : a = 0xFF := (List.cons.inj h).1
    rw [h3] at h2
    exact absurd h2 (by decide)

namespace IdDemo

/-- Interface 1 is the loopback interface, 2 has a local address, 3 has an Ethernet address. -/
def boot : Boot :=
  { hw := fun i => match i with
      | 1 => some (some ⟨772, [0, 0, 0, 0, 0, 0]⟩)
      | 2 => some (some ⟨1, [0x02, 0x42, 1, 2, 3, 4]⟩)
      | 3 => some (some ⟨1, [0x00, 0x1b, 0x21, 0xaa, 0xbb, 0xcc]⟩)
      | 4 => some none
      | _ => none
    random := some [0xFF, 1, 2, 3, 4, 5, 6, 7] }

theorem fair : FairBoot boot := by
  refine ⟨fun i h hi => ?_, _, rfl, rfl⟩
  unfold boot at hi
  simp only at hi
  split at hi
  · cases hi; exact ⟨fun _ => by decide, fun h => absurd h (by decide)⟩
  · cases hi; exact ⟨fun _ => by decide, fun h => absurd h (by decide)⟩
  · cases hi; exact ⟨fun _ => by decide, fun h => absurd h (by decide)⟩
  · cases hi
  · cases hi

/-- The router-id is made from interface 3. -/
example : chooseId {} boot = some [0x02, 0x1b, 0x21, 0xFF, 0xFE, 0xaa, 0xbb, 0xcc] := by decide +kernel
example : FirstGives boot [0x02, 0x1b, 0x21, 0xFF, 0xFE, 0xaa, 0xbb, 0xcc] :=
  ((C74_hardware (o := {}) fair rfl rfl _).1 (by decide +kernel)).elim id fun ⟨h, _⟩ =>
    absurd (⟨_, rfl, ⟨⟨0x1b, by decide, by decide⟩, by decide⟩, rfl⟩ : GivesAt boot 3 [0x02, 0x1b, 0x21, 0xFF, 0xFE, 0xaa, 0xbb, 0xcc])
      (h 3 (by decide) (by decide) _)
example : chooseId { randomId := true } boot = some [0xFC, 1, 2, 3, 4, 5, 6, 7] := by decide +kernel
example : chooseId { routerId := some [1, 2, 3, 4, 5, 6, 7, 8], randomId := true } boot = some [1, 2, 3, 4, 5, 6, 7, 8] := by decide +kernel
/-- Without interface 3, a random one. -/
example : chooseId {} { boot with hw := fun i => if i = 3 then none else boot.hw i } = some [0xFC, 1, 2, 3, 4, 5, 6, 7] := by decide +kernel
/-- An interface with an index over 255 is not found. -/
example : chooseId {} { boot with hw := fun i => if i = 256 then boot.hw 3 else none } = some [0xFC, 1, 2, 3, 4, 5, 6, 7] := by decide +kernel

end IdDemo

/-- The last 8 bytes of the address of an Infiniband interface, which has 20, are its EUI-64; the first 8 are a queue number and a part of the subnet.  Interfaces
with different addresses give the same router-id. -/
theorem C74_infiniband : ∃ g h : HwAddr, g.family = 32 ∧ h.family = 32 ∧ g.addr.length = 20 ∧ h.addr.length = 20 ∧
    g.addr.drop 12 ≠ h.addr.drop 12 ∧ Unique (g.addr.drop 12) ∧ Unique (h.addr.drop 12) ∧ ∃ id, Gives g id ∧ Gives h id :=
  ⟨⟨32, [0, 0, 0, 0x48, 0xFE, 0x80, 0, 0, 0, 0, 0, 0, 0, 0x02, 0xC9, 3, 0, 1, 2, 3]⟩,
   ⟨32, [0, 0, 0, 0x48, 0xFE, 0x80, 0, 0, 0, 0, 0, 0, 0, 0x02, 0xC9, 3, 0, 1, 2, 4]⟩, rfl, rfl, rfl, rfl, by decide,
   ⟨⟨2, by decide, by decide⟩, by decide⟩, ⟨⟨2, by decide, by decide⟩, by decide⟩,
   [2, 0, 0, 0x48, 0xFE, 0x80, 0, 0], ⟨⟨⟨0x48, by decide, by decide⟩, by decide⟩, by decide⟩, ⟨⟨⟨0x48, by decide, by decide⟩, by decide⟩, by decide⟩⟩

/-- A random router-id may be all zeroes, which the protocol forbids. -/
theorem C74_zero : ∃ b, FairBoot b ∧ chooseId { randomId := true } b = some (List.replicate 8 0) :=
  ⟨⟨fun _ => none, some [3, 0, 0, 0, 0, 0, 0, 0]⟩, ⟨fun _ _ h => (by cases h), _, rfl, rfl⟩, by decide +kernel⟩

end Babel
