import Verif.Lemmas.Netlink4
/-
C55, C56: requests to the kernel say what is meant, and what the kernel says is understood.
-/
set_option linter.unusedSimpArgs false
set_option linter.unusedVariables false
namespace Babel
open Spec

/-- When a request is sent.  It fails at once if the families of the prefixes and the next hop do not fit
(an IPv4 route may have an IPv6 next hop), or if the route is source-specific and the kernel does not
support it; nothing is done about unreachable default routes. -/
theorem C55_when (subtrees add : Bool) (table : Nat) (k : PKey) (prefSrc : Option Bytes) (gate : Bytes)
    (ifindex metric : Nat) (seqno : UInt16) (hd : k.prefix_.length = 16) (hs : k.srcPrefix.length = 16)
    (hg : gate.length = 16) (hp : ∀ a, prefSrc = some a → a.length = 16) (hv : v4mapped k.prefix_ = true → 96 ≤ k.plen) :
    (kernelRouteMsg subtrees add table k prefSrc gate ifindex metric seqno = .fail ↔
      (v4mapped k.prefix_ ≠ v4mapped k.srcPrefix ∨ (v4mapped k.prefix_ = false ∧ v4mapped gate = true)) ∨
      (isDefault k.srcPrefix k.srcPlen = false ∧ (v4mapped k.prefix_ = true ∨ subtrees = false))) ∧
    (kernelRouteMsg subtrees add table k prefSrc gate ifindex metric seqno = .skip ↔
      ¬ ((v4mapped k.prefix_ ≠ v4mapped k.srcPrefix ∨ (v4mapped k.prefix_ = false ∧ v4mapped gate = true)) ∨
        (isDefault k.srcPrefix k.srcPlen = false ∧ (v4mapped k.prefix_ = true ∨ subtrees = false))) ∧
      65535 ≤ metric ∧ isDefault k.prefix_ k.plen = true) ∧
    kernelRouteMsg subtrees add table k prefSrc gate ifindex metric seqno ≠ .undef := by
  have hF : familyOk k gate = !(decide (v4mapped k.prefix_ ≠ v4mapped k.srcPrefix) || (!v4mapped k.prefix_ && v4mapped gate)) := by
    unfold familyOk PKey.isV4
    cases h1 : v4mapped k.prefix_ with
    | true =>
      have := hv h1
      cases h2 : v4mapped k.srcPrefix <;> simp [this]
    | false => cases h2 : v4mapped k.srcPrefix <;> cases h3 : v4mapped gate <;> simp
  have hS : skippedDefault k metric = (decide (65535 ≤ metric) && isDefault k.prefix_ k.plen) := by
    unfold skippedDefault isDefault KERNEL_INFINITY
    cases v4mapped k.prefix_ <;> simp
  have hU : (k.isSS && (v4mapped k.prefix_ || !subtrees)) =
      (!isDefault k.srcPrefix k.srcPlen && (v4mapped k.prefix_ || !subtrees)) := rfl
  by_cases h1 : familyOk k gate = true
  case neg =>
    have e : kernelRouteMsg subtrees add table k prefSrc gate ifindex metric seqno = .fail := by
      unfold kernelRouteMsg; rw [if_pos (by simpa using h1)]
    rw [e]
    rw [hF] at h1
    have : (v4mapped k.prefix_ ≠ v4mapped k.srcPrefix ∨ (v4mapped k.prefix_ = false ∧ v4mapped gate = true)) := by
      revert h1
      cases v4mapped k.prefix_ <;> cases v4mapped k.srcPrefix <;> cases v4mapped gate <;> simp
    simp [this]
  have h1' : ¬ (v4mapped k.prefix_ ≠ v4mapped k.srcPrefix ∨ (v4mapped k.prefix_ = false ∧ v4mapped gate = true)) := by
    rw [hF] at h1
    revert h1
    cases v4mapped k.prefix_ <;> cases v4mapped k.srcPrefix <;> cases v4mapped gate <;> simp
  by_cases h2 : (k.isSS && (v4mapped k.prefix_ || !subtrees)) = true
  case pos =>
    have e : kernelRouteMsg subtrees add table k prefSrc gate ifindex metric seqno = .fail := by
      unfold kernelRouteMsg; rw [h1, h2]; rfl
    rw [e]
    rw [hU] at h2
    have : (isDefault k.srcPrefix k.srcPlen = false ∧ (v4mapped k.prefix_ = true ∨ subtrees = false)) := by
      simpa using h2
    simp [this]
  have h2 : (k.isSS && (v4mapped k.prefix_ || !subtrees)) = false := by simpa using h2
  have h2' : ¬ (isDefault k.srcPrefix k.srcPlen = false ∧ (v4mapped k.prefix_ = true ∨ subtrees = false)) := by
    rw [hU] at h2; simpa using h2
  by_cases h3 : skippedDefault k metric = true
  case pos =>
    have e : kernelRouteMsg subtrees add table k prefSrc gate ifindex metric seqno = .skip := by
      unfold kernelRouteMsg; rw [h1, h2, h3]; rfl
    rw [e]
    rw [hS] at h3
    have h3 : 65535 ≤ metric ∧ isDefault k.prefix_ k.plen = true := by simpa using h3
    have h4 : ¬ ((v4mapped k.prefix_ ≠ v4mapped k.srcPrefix ∨ (v4mapped k.prefix_ = false ∧ v4mapped gate = true)) ∨
        (isDefault k.srcPrefix k.srcPlen = false ∧ (v4mapped k.prefix_ = true ∨ subtrees = false))) := fun h => h.elim h1' h2'
    exact ⟨⟨nofun, fun h => absurd h h4⟩, ⟨fun _ => ⟨h4, h3⟩, fun _ => rfl⟩, nofun⟩
  have h3 : skippedDefault k metric = false := by simpa using h3
  have h3' : ¬ (65535 ≤ metric ∧ isDefault k.prefix_ k.plen = true) := by
    rw [hS] at h3; simpa using h3
  obtain ⟨b, e, -, -⟩ := request_eq subtrees add table k prefSrc gate ifindex metric seqno hd hs hg hp h1 h2 h3
  rw [e]
  exact ⟨⟨nofun, fun h => absurd h (fun h => h.elim h1' h2')⟩, ⟨nofun, fun h => absurd h.2 h3'⟩,
    nofun⟩

/-- A request that is sent says what is meant: it is a well-formed message of the kernel's format, which adds
(failing if there is such a route) or deletes a route of the given destination and source prefix, marked as a
route of Babel's, with the given next hop, interface and metric or, if the metric is infinite, without (an unreachable
route).  It asks for an acknowledgment.

Missing: the table.  Only its last 8 bits are sent (`C55_false`). -/
theorem C55_partial (subtrees add : Bool) (table : Nat) (k : PKey) (prefSrc : Option Bytes) (gate : Bytes)
    (ifindex metric : Nat) (seqno : UInt16) (hd : k.prefix_.length = 16) (hs : k.srcPrefix.length = 16)
    (hg : gate.length = 16) (hp : ∀ a, prefSrc = some a → a.length = 16) (hpl : k.plen ≤ 128) (hspl : k.srcPlen ≤ 128)
    (hv : v4mapped k.prefix_ = true → 96 ≤ k.plen) (hx : ifindex < 4294967296) {b : Bytes}
    (h : kernelRouteMsg subtrees add table k prefSrc gate ifindex metric seqno = .send b) :
    b.length ≤ 228 ∧ ∃ m : RouteMsg, m.Encoded b ∧ m.type = (if add then 24 else 25) ∧
      m.flags = (if add then 0x605 else 5) ∧ m.seq = seqno.toNat ∧ m.protocol = 42 ∧
      m.key = ⟨k.prefix_, k.plen,
        if isDefault k.srcPrefix k.srcPlen then (everything (v4mapped k.prefix_)).1 else k.srcPrefix,
        if isDefault k.srcPrefix k.srcPlen then (everything (v4mapped k.prefix_)).2 else k.srcPlen⟩ ∧
      m.target = (if metric < 65535 then some (gate, ifindex, metric) else none) ∧
      m.kind = (if metric < 65535 then 1 else 7) ∧
      attrOf m.attrs 7 = (if metric < 65535 then prefSrc.map (fun a => if v4mapped a then a.drop 12 else a) else none) ∧
      m.tableOf = table % 256 := by
  by_cases h1 : familyOk k gate = true
  case neg => unfold kernelRouteMsg at h; rw [if_pos (by simpa using h1)] at h; cases h
  by_cases h2 : (k.isSS && (v4mapped k.prefix_ || !subtrees)) = true
  case pos => unfold kernelRouteMsg at h; rw [h1, h2] at h; cases h
  have h2 : (k.isSS && (v4mapped k.prefix_ || !subtrees)) = false := by simpa using h2
  by_cases h3 : skippedDefault k metric = true
  case pos => unfold kernelRouteMsg at h; rw [h1, h2, h3] at h; cases h
  have h3 : skippedDefault k metric = false := by simpa using h3
  obtain ⟨b', e, hE, hl⟩ := request_eq subtrees add table k prefSrc gate ifindex metric seqno hd hs hg hp h1 h2 h3
  rw [e] at h
  cases h
  refine ⟨hl, _, hE, rfl, rfl, rfl, rfl, ?_, ?_, rfl, ?_, reqMsg_table ..⟩
  · rw [reqMsg_key _ _ _ _ _ _ _ _ hd hs hpl hspl hv (by
      intro h4; rw [h4] at h2; simp at h2; exact h2.1)]
    unfold PKey.isSS
    cases isDefault k.srcPrefix k.srcPlen <;> rfl
  · refine reqMsg_target _ _ _ _ _ _ _ _ hg hx ?_
    intro h4
    unfold familyOk PKey.isV4 at h1
    rw [h4] at h1
    simp at h1
    exact h1.1
  · exact reqAttrs_7 ..

/-- The table of a request is not always the configured one: tables up to 65535 are accepted in the
configuration, but table 512 is sent as table 0, and table 510 as table 254, the main table of the host. -/
theorem C55_false :
    ∃ b m, kernelRouteMsg true true 510 ⟨[0x20, 1] ++ List.replicate 14 0, 64, List.replicate 16 0, 0⟩ none
        ([0xFE, 0x80] ++ List.replicate 14 1) 3 256 7 = .send b ∧ RouteMsg.Encoded m b ∧ m.tableOf = 254 := by
  obtain ⟨b, e, hE, -⟩ := request_eq true true 510 ⟨[0x20, 1] ++ List.replicate 14 0, 64, List.replicate 16 0, 0⟩ none
    ([0xFE, 0x80] ++ List.replicate 14 1) 3 256 7 (by decide) (by decide) (by decide) (by simp) (by decide +kernel) (by decide +kernel)
    (by decide +kernel)
  exact ⟨b, _, e, hE, reqMsg_table ..⟩

/-- Changing the next hop, the interface or the metric of a route: the old route is deleted and
the new one added, in this order; nothing is done if none of them changes. -/
theorem C55_modify (subtrees : Bool) (table : Nat) (k : PKey) (prefSrc : Option Bytes) (gate : Bytes) (ifindex metric : Nat)
    (newgate : Bytes) (newifindex newmetric newtable : Nat) (seqno : UInt16)
    (hd : k.prefix_.length = 16) (hs : k.srcPrefix.length = 16)
    (hg : gate.length = 16) (hg' : newgate.length = 16) (hp : ∀ a, prefSrc = some a → a.length = 16)
    (hpl : k.plen ≤ 128) (hspl : k.srcPlen ≤ 128)
    (hv : v4mapped k.prefix_ = true → 96 ≤ k.plen) (hx : ifindex < 4294967296) (hx' : newifindex < 4294967296)
    (hok : familyOk k gate = true) (hok' : familyOk k newgate = true) (hss : isDefault k.srcPrefix k.srcPlen = true)
    (hnd : isDefault k.prefix_ k.plen = false) :
    kernelRouteModify subtrees table k prefSrc gate ifindex metric newgate newifindex newmetric newtable seqno = [.skip] ∧
      newgate = gate ∧ newifindex = ifindex ∧ newmetric = metric ∨
    (newgate ≠ gate ∨ newifindex ≠ ifindex ∨ newmetric ≠ metric) ∧
    ∃ b1 b2 m1 m2, kernelRouteModify subtrees table k prefSrc gate ifindex metric newgate newifindex newmetric newtable seqno =
        [.send b1, .send b2] ∧ RouteMsg.Encoded m1 b1 ∧ RouteMsg.Encoded m2 b2 ∧
      m1.type = 25 ∧ m2.type = 24 ∧ m1.key = m2.key ∧ m1.key.prefix_ = k.prefix_ ∧ m1.key.plen = k.plen ∧
      m1.tableOf = table % 256 ∧ m2.tableOf = newtable % 256 ∧
      m1.target = (if metric < 65535 then some (gate, ifindex, metric) else none) ∧
      m2.target = (if newmetric < 65535 then some (newgate, newifindex, newmetric) else none) ∧
      m1.seq = seqno.toNat ∧ m2.seq = (seqno + 1).toNat := by
  have t16 : ∀ {a : Bytes}, a.length = 16 → a.take 16 = a := fun h => List.take_of_length_le (by omega)
  have hU : (k.isSS && (v4mapped k.prefix_ || !subtrees)) = false := by unfold PKey.isSS; rw [hss]; rfl
  have hS : ∀ me, skippedDefault k me = false := by
    intro me
    unfold skippedDefault
    unfold isDefault at hnd
    have : (k.plen == 0 || (v4mapped k.prefix_ && k.plen == 96)) = false := by
      rw [Bool.and_comm (v4mapped k.prefix_)]; exact hnd
    rw [this, Bool.and_false]
  unfold kernelRouteModify
  rw [hok, t16 hg, t16 hg']
  by_cases he : newmetric = metric ∧ newgate = gate ∧ newifindex = ifindex
  · left
    rw [if_neg (by simp), if_pos he]
    exact ⟨rfl, he.2.1, he.2.2, he.1⟩
  · right
    refine ⟨by
      by_cases h1 : newgate = gate
      · by_cases h2 : newifindex = ifindex
        · exact Or.inr (Or.inr fun h3 => he ⟨h3, h1, h2⟩)
        · exact Or.inr (Or.inl h2)
      · exact Or.inl h1, ?_⟩
    rw [if_neg (by simp), if_neg he]
    obtain ⟨b1, e1, E1, -⟩ := request_eq subtrees false table k prefSrc gate ifindex metric seqno hd hs hg hp hok hU (hS _)
    obtain ⟨b2, e2, E2, -⟩ := request_eq subtrees true newtable k prefSrc newgate newifindex newmetric (seqno + 1) hd hs hg' hp
      hok' hU (hS _)
    have hna : k.isSS = false := by unfold PKey.isSS; rw [hss]; rfl
    have hk : ∀ add table gate ifindex metric seqno, (reqMsg add table k prefSrc gate ifindex metric seqno).key = _ :=
      fun add table gate ifindex metric seqno => reqMsg_key add table k prefSrc gate ifindex metric seqno hd hs hpl hspl hv
        (by rw [hna]; simp)
    have hg4 : ∀ g, familyOk k g = true → v4mapped k.prefix_ = false → v4mapped g = false := by
      intro g h1 h4
      unfold familyOk PKey.isV4 at h1
      rw [h4] at h1
      simp at h1
      exact h1.1
    refine ⟨b1, b2, _, _, ?_, E1, E2, rfl, rfl, ?_, ?_, ?_, reqMsg_table .., reqMsg_table ..,
      reqMsg_target _ _ _ _ _ _ _ _ hg hx (hg4 _ hok), reqMsg_target _ _ _ _ _ _ _ _ hg' hx' (hg4 _ hok'), rfl, rfl⟩
    · rw [e1]
      simp only
      rw [e2]
    · rw [hk, hk]
    · rw [hk]
    · rw [hk]

/-- A route that is put in the kernel, in the model of the routing table (C10), is the one that the request
says, if the table is less than 256. -/
theorem C55_entry (c : Cfg) (s s' : St) (table : Nat) (k : PKey) (gate : Bytes) (ifindex metric : Nat) (e : KEntry)
    (prefSrc : Option Bytes) (seqno : UInt16)
    (hd : k.prefix_.length = 16) (hs : k.srcPrefix.length = 16)
    (hg : gate.length = 16) (hp : ∀ a, prefSrc = some a → a.length = 16) (hpl : k.plen ≤ 128) (hspl : k.srcPlen ≤ 128)
    (hv : v4mapped k.prefix_ = true → 96 ≤ k.plen) (hx : ifindex < 4294967296) (ht : table < 256)
    (hdef : isDefault k.srcPrefix k.srcPlen = true → (k.srcPrefix, k.srcPlen) = everything (v4mapped k.prefix_))
    (h : kernelAdd c s table k gate ifindex metric = (.ok, s')) (he : s'.fib = e :: s.fib) :
    ∃ b m, kernelRouteMsg c.subtrees true table k prefSrc gate ifindex metric seqno = .send b ∧ RouteMsg.Encoded m b ∧
      m.type = 24 ∧ e = ⟨m.tableOf, m.key, m.target⟩ := by
  unfold kernelAdd at h
  by_cases h1 : familyOk k gate = true
  case neg => rw [if_pos (by simp [h1])] at h; cases h
  by_cases h2 : srcUnsupported c k = true
  case pos => rw [if_pos (by simp [h2])] at h; cases h
  have h2 : srcUnsupported c k = false := by simpa using h2
  rw [h1, h2, if_neg (by simp)] at h
  by_cases h3 : skippedDefault k metric = true
  case pos =>
    rw [if_pos h3] at h
    cases h
    have := congrArg List.length he
    simp at this
  have h3 : skippedDefault k metric = false := by simpa using h3
  rw [if_neg (by simp [h3])] at h
  have hpop : (popK s).2.fib = s.fib := rfl
  cases hpk : popK s with
  | mk r s1 =>
    rw [hpk] at h hpop
    simp only at h hpop
    split at h
    · cases h
      simp only [List.cons.injEq] at he
      obtain ⟨he, -⟩ := he
      obtain ⟨b, e1, E1, -⟩ := request_eq c.subtrees true table k prefSrc gate ifindex metric seqno hd hs hg hp h1 h2 h3
      refine ⟨b, _, e1, E1, rfl, ?_⟩
      rw [reqMsg_table, reqMsg_target _ _ _ _ _ _ _ _ hg hx (by
        intro h4
        unfold familyOk PKey.isV4 at h1
        rw [h4] at h1
        simp at h1
        exact h1.1), reqMsg_key _ _ _ _ _ _ _ _ hd hs hpl hspl hv (by
          intro h4; unfold srcUnsupported at h2; rw [h4] at h2; simp at h2; exact h2.1), ← he, Nat.mod_eq_of_lt ht]
      unfold kernelEntry KERNEL_INFINITY
      have hk : k = ⟨k.prefix_, k.plen, if k.isSS then k.srcPrefix else (everything (v4mapped k.prefix_)).1,
        if k.isSS then k.srcPlen else (everything (v4mapped k.prefix_)).2⟩ := by
        unfold PKey.isSS
        cases hq : isDefault k.srcPrefix k.srcPlen with
        | true => rw [← hdef hq]; rfl
        | false => rfl
      rw [← hk]
    · next hne => cases h; exact absurd rfl hne

/-- An IPv4 route with an IPv6 next hop, and an unreachable route. -/
example : kernelRouteMsg true true 254 ⟨[0, 0, 0, 0, 0, 0, 0, 0, 0, 0, 255, 255, 10, 0, 0, 0], 104,
      [0, 0, 0, 0, 0, 0, 0, 0, 0, 0, 255, 255, 0, 0, 0, 0], 96⟩ none ([0xFE, 0x80] ++ List.replicate 13 0 ++ [1]) 3 256 7 =
    .send ([74, 0, 0, 0, 24, 0, 5, 6, 7, 0, 0, 0, 0, 0, 0, 0, 2, 8, 0, 0, 254, 42, 0, 1, 4, 0, 0, 0] ++
      [8, 0, 1, 0, 10, 0, 0, 0] ++ [8, 0, 6, 0, 0, 1, 0, 0] ++ [8, 0, 4, 0, 3, 0, 0, 0] ++
      [22, 0, 18, 0, 10, 0, 0xFE, 0x80, 0, 0, 0, 0, 0, 0, 0, 0, 0, 0, 0, 0, 0, 1]) := by decide +kernel

example : kernelRouteMsg true false 254 ⟨[0x20, 1] ++ List.replicate 14 0, 64, List.replicate 16 0, 0⟩ none
      ([0xFE, 0x80] ++ List.replicate 13 0 ++ [1]) 3 65535 7 =
    .send ([56, 0, 0, 0, 25, 0, 5, 0, 7, 0, 0, 0, 0, 0, 0, 0, 10, 64, 0, 0, 254, 42, 0, 7, 0, 0, 0, 0] ++
      [20, 0, 1, 0] ++ [0x20, 1] ++ List.replicate 14 0 ++ [8, 0, 6, 0, 255, 255, 255, 255]) := by decide +kernel

/-- Moving a route to another next hop: the hypotheses of `C55_modify` are met. -/
example : (kernelRouteModify true 254 ⟨[0x20, 1] ++ List.replicate 14 0, 64, List.replicate 16 0, 0⟩ none
      ([0xFE, 0x80] ++ List.replicate 13 0 ++ [1]) 3 256 ([0xFE, 0x80] ++ List.replicate 13 0 ++ [2]) 4 512 254 7).length = 2 ∧
    familyOk ⟨[0x20, 1] ++ List.replicate 14 0, 64, List.replicate 16 0, 0⟩ ([0xFE, 0x80] ++ List.replicate 13 0 ++ [1]) = true ∧
    familyOk ⟨[0x20, 1] ++ List.replicate 14 0, 64, List.replicate 16 0, 0⟩ ([0xFE, 0x80] ++ List.replicate 13 0 ++ [2]) = true ∧
    isDefault ([0x20, 1] ++ List.replicate 14 0) 64 = false := by
  refine ⟨?_, ?_, ?_, ?_⟩ <;> decide +kernel

/-- A message about a route, from the kernel: it is understood as what it says.  It is ignored exactly if it is not about
a route, or is about a route of Babel's own, or a cloned route (a cache entry), or a route of a table that is not
imported, or an unreachable route to everything (`plen` 0: IPv6 only), or if an address is too short. -/
theorem C56_routes {m : RouteMsg} {b : Bytes} (hb : m.Encoded b) (ht : m.type < 65536)
    (hfl : m.rtFlags < 4294967296)
    (hi : ∀ a ∈ m.attrs, a.type = 4 ∨ a.type = 6 ∨ a.type = 15 → 4 ≤ a.data.length) (imports : List Nat)
    (himp : ∀ t ∈ imports, t < 2147483648) :
    filterKernelRoutes (imports.map Int.ofNat) b =
      if (m.type = 24 ∨ m.type = 25) ∧ m.protocol ≠ 42 ∧ m.rtFlags &&& 0x200 = 0 ∧
        (∀ a ∈ m.attrs, a.type = 1 ∨ a.type = 2 ∨ a.type = 5 → (if m.family = 2 then 4 else 16) ≤ a.data.length) ∧
        m.tableOf ∈ imports ∧ ¬ (m.key.plen = 0 ∧ 65535 ≤ intAttr m.attrs 6) then
        .ok (⟨m.key, min (intAttr m.attrs 6) 65535, intAttr m.attrs 4, m.protocol.toNat⟩,
          ((attrOf m.attrs 5).map (addrBytes m.family)).getD (List.replicate 16 0))
      else .reject :=
  filterRoutes_encoded hb ht hfl hi imports himp

/-- A message about 10.0.0.0/8 via 192.168.0.1 on interface 3, metric 1024, of protocol 3 (boot). -/
example : ∃ (m : RouteMsg) (b : Bytes), m.Encoded b ∧ filterKernelRoutes [254] b =
    .ok (⟨⟨[0, 0, 0, 0, 0, 0, 0, 0, 0, 0, 255, 255, 10, 0, 0, 0], 104, [0, 0, 0, 0, 0, 0, 0, 0, 0, 0, 255, 255, 0, 0, 0, 0], 96⟩,
      1024, 3, 3⟩, [0, 0, 0, 0, 0, 0, 0, 0, 0, 0, 255, 255, 192, 168, 0, 1]) := by
  refine ⟨⟨24, 0, 0, 0, 2, 8, 0, 0, 254, 3, 0, 1, 0,
    [⟨15, [254, 0, 0, 0]⟩, ⟨1, [10, 0, 0, 0]⟩, ⟨6, [0, 4, 0, 0]⟩, ⟨5, [192, 168, 0, 1]⟩, ⟨4, [3, 0, 0, 0]⟩]⟩, _,
    ⟨_, .cons [] (by decide) (by decide) (by decide) (.cons [] (by decide) (by decide) (by decide)
      (.cons [] (by decide) (by decide) (by decide) (.cons [] (by decide) (by decide) (by decide) (.last (by decide))))), rfl⟩, ?_⟩
  decide +kernel

/-- Unreachable default routes of IPv4 are not ignored (those of IPv6 are): a route with the metric `0xFFFF`
is delivered. -/
theorem C56_unreachable_v4 : ∃ (m : RouteMsg) (b : Bytes), m.Encoded b ∧ m.kind = 7 ∧
    m.key = ⟨(everything true).1, 96, (everything true).1, 96⟩ ∧ filterKernelRoutes [254] b =
    .ok (⟨m.key, 65535, 0, 3⟩, List.replicate 16 0) := by
  refine ⟨⟨24, 0, 0, 0, 2, 0, 0, 0, 254, 3, 0, 7, 0, [⟨6, [255, 255, 255, 255]⟩]⟩, _, ⟨_, .last (by decide), rfl⟩, rfl, ?_, ?_⟩
  · decide +kernel
  · decide +kernel

/-- A route attribute that is shorter than an integer is read beyond its end; here, beyond the end of the
message. -/
theorem C56_short : ∃ (m : RouteMsg) (b : Bytes), m.Encoded b ∧ filterKernelRoutes [254] b = .undef := by
  refine ⟨⟨24, 0, 0, 0, 2, 0, 0, 0, 254, 3, 0, 7, 0, [⟨4, []⟩]⟩, _, ⟨_, .last (by decide), rfl⟩, ?_⟩
  decide +kernel

/-- A message about an address: the address and the interface are those of the message. -/
theorem C56_addresses {m : AddrMsg} {b : Bytes} (hb : m.Encoded b) (ht : m.type < 65536) (hx : m.ifindex < 4294967296)
    (hf : m.family = 2 ∨ m.family = 10)
    (hi : ∀ a ∈ m.attrs, a.type = 1 ∨ a.type = 2 → (if m.family = 2 then 4 else 16) ≤ a.data.length) :
    filterAddresses b = if m.type = 20 ∨ m.type = 21 then .ok (m.address, m.ifindex) else .reject :=
  filterAddresses_encoded hb ht hx hf hi

/-- A point-to-point link: the local address, not that of the peer. -/
example : ∃ (m : AddrMsg) (b : Bytes), m.Encoded b ∧ filterAddresses b =
    .ok (some [0, 0, 0, 0, 0, 0, 0, 0, 0, 0, 255, 255, 10, 0, 0, 1], 5) := by
  refine ⟨⟨20, 0, 0, 0, 2, 32, 0, 0, 5, [⟨1, [10, 0, 0, 2]⟩, ⟨2, [10, 0, 0, 1]⟩, ⟨3, [101, 116, 104, 48, 0]⟩]⟩, _,
    ⟨_, .cons [] (by decide) (by decide) (by decide) (.cons [] (by decide) (by decide) (by decide) (.last (by decide))), rfl⟩, ?_⟩
  decide +kernel

/-- A message without an address is delivered with an address that was not initialised. -/
theorem C56_no_address : ∃ (m : AddrMsg) (b : Bytes), m.Encoded b ∧ filterAddresses b = .ok (none, 5) := by
  refine ⟨⟨20, 0, 0, 0, 2, 32, 0, 0, 5, []⟩, _, ⟨_, .nil, rfl⟩, ?_⟩
  decide +kernel

/-- A route that another router of the same kind asks for is understood by the ones that import its
table: destination, source prefix, metric and interface are those of the request.  So is the next hop, except that
the IPv6 next hop of an IPv4 route is not seen. -/
theorem C56_roundtrip (subtrees : Bool) (table : Nat) (k : PKey) (prefSrc : Option Bytes) (gate : Bytes)
    (ifindex metric : Nat) (seqno : UInt16) (proto : UInt8) (hd : k.prefix_.length = 16) (hs : k.srcPrefix.length = 16)
    (hg : gate.length = 16) (hp : ∀ a, prefSrc = some a → a.length = 16) (hpl : k.plen ≤ 128) (hspl : k.srcPlen ≤ 128)
    (hv : v4mapped k.prefix_ = true → 96 ≤ k.plen) (hx : ifindex < 4294967296) (ht : table < 256) (hpr : proto ≠ 42)
    (hm : metric < 65535) {b : Bytes}
    (hdef : isDefault k.srcPrefix k.srcPlen = true → (k.srcPrefix, k.srcPlen) = everything (v4mapped k.prefix_))
    (h : kernelRouteMsg subtrees true table k prefSrc gate ifindex metric seqno = .send b) :
    filterKernelRoutes [(table : Int)] (b.set 21 proto) = .ok (⟨k, metric, ifindex, proto.toNat⟩,
      if v4mapped k.prefix_ = true ∧ v4mapped gate = false then List.replicate 16 0 else gate) := by
  by_cases h1 : familyOk k gate = true
  case neg => unfold kernelRouteMsg at h; rw [if_pos (by simpa using h1)] at h; cases h
  by_cases h2 : (k.isSS && (v4mapped k.prefix_ || !subtrees)) = true
  case pos => unfold kernelRouteMsg at h; rw [h1, h2] at h; cases h
  have h2 : (k.isSS && (v4mapped k.prefix_ || !subtrees)) = false := by simpa using h2
  by_cases h3 : skippedDefault k metric = true
  case pos => unfold kernelRouteMsg at h; rw [h1, h2, h3] at h; cases h
  have h3 : skippedDefault k metric = false := by simpa using h3
  obtain ⟨b', e, hE, hl⟩ := request_eq subtrees true table k prefSrc gate ifindex metric seqno hd hs hg hp h1 h2 h3
  rw [e] at h
  cases h
  have hg4 : v4mapped k.prefix_ = false → v4mapped gate = false := by
    intro h4
    unfold familyOk PKey.isV4 at h1
    rw [h4] at h1
    simp at h1
    exact h1.1
  have hkey := reqMsg_key true table k prefSrc gate ifindex metric seqno hd hs hpl hspl hv (by
    intro h4; rw [h4] at h2; simp at h2; exact h2.1)
  have hk : k = ⟨k.prefix_, k.plen, if k.isSS then k.srcPrefix else (everything (v4mapped k.prefix_)).1,
      if k.isSS then k.srcPlen else (everything (v4mapped k.prefix_)).2⟩ := by
    unfold PKey.isSS
    cases hq : isDefault k.srcPrefix k.srcPlen with
    | true => rw [← hdef hq]; rfl
    | false => rfl
  rw [← hk] at hkey
  have htab := reqMsg_table true table k prefSrc gate ifindex metric seqno
  rw [Nat.mod_eq_of_lt ht] at htab
  have h6 : intAttr (reqAttrs k prefSrc gate ifindex metric) 6 = metric := by
    unfold intAttr
    rw [reqAttrs_6, if_pos (show metric < KERNEL_INFINITY from hm)]
    simp only
    rw [List.take_of_length_le (by rw [leBytes_length]; omega)]
    exact leVal_leBytes 4 _ (by omega)
  have h4 : intAttr (reqAttrs k prefSrc gate ifindex metric) 4 = ifindex := by
    unfold intAttr
    rw [reqAttrs_4, if_pos (show metric < KERNEL_INFINITY from hm)]
    simp only
    rw [List.take_of_length_le (by rw [leBytes_length]; omega)]
    exact leVal_leBytes 4 _ (by omega)
  have hlens : ∀ a ∈ reqAttrs k prefSrc gate ifindex metric,
      (a.type = 4 ∨ a.type = 6 ∨ a.type = 15 → 4 ≤ a.data.length) ∧
      (a.type = 1 ∨ a.type = 2 ∨ a.type = 5 →
        (if (if v4mapped k.prefix_ then (2 : UInt8) else 10) = 2 then 4 else 16) ≤ a.data.length) := by
    unfold reqAttrs
    rw [if_pos (show metric < KERNEL_INFINITY from hm)]
    intro a ha
    simp only [List.mem_append, List.mem_cons, List.not_mem_nil, or_false] at ha
    rcases ha with (ha | ha) | ((ha | ha | ha) | ha)
    · subst ha; cases v4mapped k.prefix_ <;> simp [hd]
    · cases e1 : v4mapped k.prefix_ <;> cases e3 : k.isSS <;> simp [e1, e3] at ha
      subst ha; simp [hs]
    · subst ha; simp [leBytes_length]
    · subst ha; simp [leBytes_length]
    · cases e1 : v4mapped k.prefix_ with
      | false =>
        have e2 := hg4 e1
        simp [e1, e2] at ha
        subst ha; simp [hg]
      | true =>
        cases e2 : v4mapped gate <;> simp [e1, e2] at ha <;> subst ha <;> simp [hg]
    · cases prefSrc with
      | none => simp at ha
      | some x => simp at ha; subst ha; simp
  obtain ⟨A, hA, hb⟩ := hE
  obtain ⟨M, hM⟩ : ∃ M : RouteMsg, M = { reqMsg true table k prefSrc gate ifindex metric seqno with protocol := proto } := ⟨_, rfl⟩
  have hE' : M.Encoded (b.set 21 proto) := by
    subst hM
    refine ⟨A, hA, ?_⟩
    rw [hb]
    simp only [leBytes, List.cons_append, List.nil_append]
    rfl
  have m1 : M.type = 24 := by subst hM; rfl
  have m2 : M.protocol = proto := by subst hM; rfl
  have m3 : M.rtFlags = 4 := by subst hM; simp only [reqMsg]; rw [if_pos (show metric < KERNEL_INFINITY from hm)]
  have m4 : M.attrs = reqAttrs k prefSrc gate ifindex metric := by subst hM; rfl
  have m5 : M.family = if v4mapped k.prefix_ then 2 else 10 := by subst hM; rfl
  have m6 : M.key = k := by subst hM; exact hkey
  have m7 : M.tableOf = table := by subst hM; exact htab
  have h5 : ((attrOf (reqAttrs k prefSrc gate ifindex metric) 5).map
      (addrBytes (if v4mapped k.prefix_ then 2 else 10))).getD (List.replicate 16 0) =
      if v4mapped k.prefix_ = true ∧ v4mapped gate = false then List.replicate 16 0 else gate := by
    rw [reqAttrs_5]
    have hm' : metric < KERNEL_INFINITY := hm
    cases e1 : v4mapped k.prefix_ with
    | false =>
      have e2 := hg4 e1
      simp [e2, hm', addr6 hg]
    | true =>
      cases e2 : v4mapped gate with
      | false => simp [e2]
      | true => simp [e2, hm', addr4 e2 hg]
  have := filterRoutes_encoded hE' (by omega) (by omega) (by rw [m4]; exact fun a ha => (hlens a ha).1) [table]
    (by simp; omega)
  rw [m1, m2, m3, m4, m5, m6, m7, h5, h6, h4, Nat.min_eq_left (by omega), if_pos ⟨Or.inl rfl, hpr, rfl,
    fun a ha => (hlens a ha).2, by simp, fun h7 => by omega⟩] at this
  exact this

end Babel
