import Verif.Lemmas.System
/-
C81: the time goes on and does not jump back, and what the kernel and the interfaces can do is found out
properly.
-/
set_option linter.unusedVariables false
namespace Babel
open Spec

/-- With POSIX clocks, the time is that of the monotonic clock, in microseconds; if that clock does not go back, nor does the time. -/
theorem C81_posix (i : ClockIn) (ins : List ClockIn) (hp : i.probe = true) :
    clockRun {} (i :: ins) = (i :: ins).map (fun i => i.mono.map fun t => (t.1, t.2 / 1000)) ∧
    (((i :: ins).filterMap (·.mono)).Pairwise (fun a b => a.1 * 1000000000 + (a.2 : Int) ≤ b.1 * 1000000000 + (b.2 : Int)) →
      ((clockRun {} (i :: ins)).filterMap id).Pairwise fun a b => inMicros a ≤ inMicros b) := by
  have e : clockRun {} (i :: ins) = (i :: ins).map (fun i => i.mono.map fun t => (t.1, t.2 / 1000)) := by
    rw [← clockRun_posix (i :: ins) { posix := some true } rfl]
    unfold clockRun
    have : gettime {} i = gettime { posix := some true } i := by
      unfold gettime; rw [hp]; rfl
    rw [this]
  refine ⟨e, fun h => ?_⟩
  rw [e, List.filterMap_map]
  have e2 : ((i :: ins).filterMap (id ∘ fun i : ClockIn => i.mono.map fun t => (t.1, t.2 / 1000))) =
      ((i :: ins).filterMap (·.mono)).map fun t => (t.1, t.2 / 1000) := by
    rw [List.map_filterMap]; rfl
  rw [e2, List.pairwise_map]
  exact h.imp fun {a b} hab => by unfold inMicros; simp only; omega

/-- Without them, the time is what has elapsed on the system's clock, not counting the times at which it is set back; calls that fail change nothing. -/
theorem C81_fallback (ins : List ClockIn) (hp : ∀ i, ins.head? = some i → i.probe = false) :
    (clockRun {} ins).filterMap id = elapsed 0 0 (ins.filterMap (·.wall)) := by
  have := clockRun_wall ins {} (Or.inr ⟨rfl, hp⟩)
  simpa using this

/-- In that case the seconds never go back, and the time goes back by less than a second. -/
theorem C81_seconds (ins : List ClockIn) (hp : ∀ i, ins.head? = some i → i.probe = false) :
    ((clockRun {} ins).filterMap id).Pairwise (fun a b => a.1 ≤ b.1) ∧
    ((∀ t ∈ ins.filterMap (·.wall), t.2 < 1000000) →
      ((clockRun {} ins).filterMap id).Pairwise fun a b => inMicros a < inMicros b + 1000000) := by
  rw [C81_fallback ins hp]
  refine ⟨elapsed_sorted _ _ _, fun hu => ?_⟩
  have hu' : ∀ t ∈ elapsed 0 0 (ins.filterMap (·.wall)), t.2 < 1000000 := by
    intro t ht
    have : t.2 ∈ (elapsed 0 0 (ins.filterMap (·.wall))).map (·.2) := List.mem_map_of_mem ht
    rw [elapsed_usec] at this
    obtain ⟨x, hx, e⟩ := List.mem_map.1 this
    rw [← e]; exact hu x hx
  refine (elapsed_sorted _ _ _).imp_of_mem ?_
  intro a b ha hb h
  have := hu' a ha
  unfold inMicros
  omega

/-- It does go back if the system's clock is set back within a second: monotonicity is not enforced. -/
theorem C81_monotone_false : ∃ (i j : ClockIn) (a b : Int × Nat), i.probe = false ∧
    clockRun {} [i, j] = [some a, some b] ∧ inMicros b < inMicros a :=
  ⟨⟨false, none, some (100, 900000)⟩, ⟨false, none, some (100, 100000)⟩, (100, 900000), (100, 100000), rfl,
    by decide +kernel, by decide +kernel⟩

/-- The features of the kernel are used exactly from the releases on that have them, and only on Linux. -/
theorem C81_features (name release : Bytes) (hn : ∀ c ∈ name, c ≠ 0) :
    (∀ a b, name = ascii "Linux" → Release release a b → a < 2147483648 → b < 2147483648 →
      (hasIpv6Subtrees (some (name, release)) = true ↔ AtLeast a b 3 11) ∧
      (hasV4viav6 (some (name, release)) = true ↔ AtLeast a b 5 2) ∧
      (safeV4viav6 (some (name, release)) = true ↔ AtLeast a b 5 13)) ∧
    (name ≠ ascii "Linux" →
      hasIpv6Subtrees (some (name, release)) = false ∧ hasV4viav6 (some (name, release)) = false ∧
      safeV4viav6 (some (name, release)) = false) := by
  constructor
  · intro a b e h ha hb
    subst e
    exact ⟨older_text h ha hb 3 11, older_text h ha hb 5 2, older_text h ha hb 5 13⟩
  · intro h
    have e : ∀ x y, kernelOlderThan (some (name, release)) (ascii "Linux") x y = -1 := by
      intro x y
      unfold kernelOlderThan
      simp only
      rw [cstr_id _ hn, if_pos (Ne.symm h)]
    unfold hasIpv6Subtrees hasV4viav6 safeV4viav6
    rw [e, e, e]
    exact ⟨rfl, rfl, rfl⟩

/-- If the kernel does not tell its release, none of them is used; a kernel that can safely route IPv4 over IPv6 can route it. -/
theorem C81_features_order (un : Uname) :
    (hasIpv6Subtrees none = false ∧ hasV4viav6 none = false ∧ safeV4viav6 none = false) ∧
    (safeV4viav6 un = true → hasV4viav6 un = true) ∧ (hasV4viav6 un = true → hasIpv6Subtrees un = true) := by
  refine ⟨⟨rfl, rfl, rfl⟩, ?_⟩
  have key : ∀ x y x' y' : Int, (x' < x ∨ (x' = x ∧ y' ≤ y)) →
      (kernelOlderThan un (ascii "Linux") x y == 0) = true → (kernelOlderThan un (ascii "Linux") x' y' == 0) = true := by
    intro x y x' y' hle h
    unfold kernelOlderThan at h ⊢
    cases un with
    | none => simp at h
    | some u =>
      simp only at h ⊢
      split at h
      · exact absurd h (by decide)
      · next hn =>
        rw [if_neg hn]
        cases hv : scanVersion u.2 with
        | none => rw [hv] at h; simp at h
        | some v =>
          rw [hv] at h
          simp only at h ⊢
          split at h
          · exact absurd h (by decide)
          · next hq => rw [if_neg (by omega)]; rfl
  exact ⟨key 5 13 5 2 (by omega), key 5 2 3 11 (by omega)⟩

/-- An interface is operational exactly if it is up and, if links are to be detected, running. -/
theorem C81_operational (detect : Bool) (flags : Option Nat) :
    (interfaceOperational detect flags = 1 ↔
      ∃ f, flags = some f ∧ f.testBit 0 = true ∧ (detect = true → f.testBit 6 = true)) ∧
    (interfaceOperational detect flags < 0 ↔ flags = none) := by
  cases flags with
  | none => unfold interfaceOperational; simp
  | some f =>
    have key : (f &&& (if detect then IFF_UP_BIT ||| IFF_RUNNING_BIT else IFF_UP_BIT) =
        (if detect then IFF_UP_BIT ||| IFF_RUNNING_BIT else IFF_UP_BIT)) ↔
        f.testBit 0 = true ∧ (detect = true → f.testBit 6 = true) := by
      cases detect with
      | false =>
        simp only [Bool.false_eq_true, if_false, false_implies, and_true]
        constructor
        · intro h
          have := congrArg (Nat.testBit · 0) h
          simpa [IFF_UP_BIT] using this
        · intro h
          apply Nat.eq_of_testBit_eq
          intro i
          rw [Nat.testBit_and]
          by_cases hi : i = 0
          · subst hi; simp [h]
          · have : IFF_UP_BIT.testBit i = false := by
              show (2 ^ 0).testBit i = false
              rw [Nat.testBit_two_pow]; simp; omega
            rw [this, Bool.and_false]
      | true =>
        simp only [if_true, true_implies]
        have hb : ∀ i, (IFF_UP_BIT ||| IFF_RUNNING_BIT).testBit i = (decide (0 = i) || decide (6 = i)) := by
          intro i
          rw [Nat.testBit_or]
          show ((2 ^ 0).testBit i || (2 ^ 6).testBit i) = _
          rw [Nat.testBit_two_pow, Nat.testBit_two_pow]
        constructor
        · intro h
          have h0 := congrArg (Nat.testBit · 0) h
          have h6 := congrArg (Nat.testBit · 6) h
          simp only [Nat.testBit_and, hb] at h0 h6
          exact ⟨by simpa using h0, by simpa using h6⟩
        · intro ⟨h0, h6⟩
          apply Nat.eq_of_testBit_eq
          intro i
          rw [Nat.testBit_and, hb]
          by_cases hi : i = 0
          · subst hi; simp [h0]
          · by_cases hj : i = 6
            · subst hj; simp [h6]
            · simp [Ne.symm hi, Ne.symm hj]
    unfold interfaceOperational
    simp only
    constructor
    · constructor
      · intro h
        refine ⟨f, rfl, key.1 (Decidable.byContradiction fun hh => ?_)⟩
        rw [if_neg hh] at h
        exact absurd h (by decide)
      · intro ⟨g, e, h⟩
        cases e
        rw [if_pos (key.2 h)]
    · constructor
      · intro h
        generalize (if detect = true then IFF_UP_BIT ||| IFF_RUNNING_BIT else IFF_UP_BIT) = m at h
        split at h <;> omega
      · intro h; cases h

/-- An interface is taken to be wireless exactly if it has a wireless name and is known to be neither a bridge nor a mesh of
another protocol; and to be wired exactly if it is known to be none of the three.  A bridge is known from /sys if that can be
read, else from the list of bridges. -/
theorem C81_wireless (p : IfProbe) (ifindex : Nat) :
    let notBridge := (p.sysfs = true ∧ p.bridge = .noent) ∨
      ((p.sysfs = true → p.bridge = .other) ∧ (p.brctl = .nopkg ∨ ∃ l, p.brctl = .bridges l ∧ ifindex ∉ l))
    (interfaceWireless p ifindex = 1 ↔ notBridge ∧ p.mesh = .noent ∧ p.iwname = .ok) ∧
    (interfaceWireless p ifindex = 0 ↔ notBridge ∧ p.mesh = .noent ∧ p.iwname = .notsup) ∧
    (interfaceWireless p ifindex = 1 ∨ interfaceWireless p ifindex = 0 ∨ interfaceWireless p ifindex = -1) := by
  obtain ⟨sysfs, bridge, brctl, mesh, iw⟩ := p
  have hf : bridgeFallback ⟨sysfs, bridge, brctl, mesh, iw⟩ ifindex = 0 ↔
      (brctl = .nopkg ∨ ∃ l, brctl = .bridges l ∧ ifindex ∉ l) := by
    unfold bridgeFallback
    cases brctl with
    | bridges l =>
      simp only
      by_cases h : ifindex ∈ l
      · rw [if_pos (by simpa using h)]; simp [h]
      · rw [if_neg (by simpa using h)]; simp [h]
    | nopkg => simp
    | other => simp
  have hb : isbridge ⟨sysfs, bridge, brctl, mesh, iw⟩ ifindex = 0 ↔ ((sysfs = true ∧ bridge = .noent) ∨
      ((sysfs = true → bridge = .other) ∧ (brctl = .nopkg ∨ ∃ l, brctl = .bridges l ∧ ifindex ∉ l))) := by
    rw [← hf]
    unfold isbridge
    cases sysfs <;> cases bridge <;> simp
  have hm : isbatman ⟨sysfs, bridge, brctl, mesh, iw⟩ = 0 ↔ mesh = .noent := by
    unfold isbatman; cases mesh <;> simp
  simp only
  rw [← hb, ← hm]
  unfold interfaceWireless
  by_cases h1 : isbridge ⟨sysfs, bridge, brctl, mesh, iw⟩ ifindex = 0 <;>
  by_cases h2 : isbatman ⟨sysfs, bridge, brctl, mesh, iw⟩ = 0 <;>
  cases iw <;> simp [h1, h2]

/-! A clock that is set back by an hour, and goes on. -/
example : clockRun {} [⟨false, none, some (5000, 7)⟩, ⟨true, none, none⟩, ⟨false, none, some (1400, 8)⟩, ⟨false, none, some (1410, 9)⟩] =
    [some (5000, 7), none, some (5000, 8), some (5010, 9)] := by decide +kernel

example : elapsed 0 0 [(5000, 7), (1400, 8), (1410, 9)] = [(5000, 7), (5000, 8), (5010, 9)] := by decide +kernel

example : clockRun {} [⟨true, some (10, 999999), none⟩, ⟨false, some (10, 1000001), none⟩] = [some (10, 999), some (10, 1000)] := by
  decide +kernel

example : Release (ascii "5.10.0-21-amd64") 5 10 :=
  .mk (w1 := ascii "5") (w2 := ascii "10") (rest := ascii ".0-21-amd64")
    (.cons (d := 5) ⟨by omega, by decide⟩ (by omega) .nil) (by decide)
    (.cons (d := 1) ⟨by omega, by decide⟩ (by omega) (.cons (d := 0) ⟨by omega, by decide⟩ (by omega) .nil)) (by decide)
    (by decide) (by intro c t e; cases e; left; decide)

/-! Release 5.10 can route IPv4 over IPv6, but not safely; 5.2 is older than 5.13. -/
example : hasV4viav6 (some (ascii "Linux", ascii "5.10.0-21-amd64")) = true ∧
    safeV4viav6 (some (ascii "Linux", ascii "5.10.0-21-amd64")) = false ∧
    hasIpv6Subtrees (some (ascii "Linux", ascii "3.10.0")) = false ∧
    safeV4viav6 (some (ascii "Linux", ascii "6.1.0")) = true ∧
    hasV4viav6 (some (ascii "FreeBSD", ascii "13.2-RELEASE")) = false := by decide +kernel

example : interfaceOperational true (some 0x1003) = 0 ∧ interfaceOperational false (some 0x1003) = 1 ∧
    interfaceOperational true (some 0x1043) = 1 := by decide +kernel

example : interfaceWireless ⟨true, .noent, .other, .noent, .ok⟩ 3 = 1 ∧
    interfaceWireless ⟨false, .ok, .bridges [4, 3], .noent, .ok⟩ 3 = -1 ∧
    interfaceWireless ⟨false, .other, .bridges [4], .noent, .notsup⟩ 3 = 0 := by decide +kernel

end Babel
