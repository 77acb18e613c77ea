import Verif.Lemmas.Netlink2
/-
Netlink messages: messages of the kernel.
-/
set_option linter.unusedSimpArgs false
set_option linter.unusedVariables false
namespace Babel
open Spec

theorem filterRoutes_encoded {m : RouteMsg} {b : Bytes} (hb : m.Encoded b) (ht : m.type < 65536)
    (hfl : m.rtFlags < 4294967296)
    (hi : ∀ a ∈ m.attrs, a.type = 4 ∨ a.type = 6 ∨ a.type = 15 → 4 ≤ a.data.length) (imports : List Nat)
    (himp : ∀ t ∈ imports, t < 2147483648) :
    filterKernelRoutes (imports.map Int.ofNat) b =
      if (m.type = 24 ∨ m.type = 25) ∧ m.protocol ≠ 42 ∧ m.rtFlags &&& 0x200 = 0 ∧
        (∀ a ∈ m.attrs, a.type = 1 ∨ a.type = 2 ∨ a.type = 5 → (if m.family = 2 then 4 else 16) ≤ a.data.length) ∧
        m.tableOf ∈ imports ∧ ¬ (m.key.plen = 0 ∧ 65535 ≤ intAttr m.attrs 6) then
        .ok (⟨m.key, min (intAttr m.attrs 6) 65535, intAttr m.attrs 4, m.protocol.toNat⟩,
          ((attrOf m.attrs 5).map (addrBytes m.family)).getD (List.replicate 16 0))
      else .reject := by
  obtain ⟨A, hA, hb⟩ := hb
  have hlen : b.length = 28 + A.length := by rw [hb]; simp [leBytes_length]; omega
  have r1 : hrd16 b 4 = some m.type := hrd16_append' (p := leBytes 4 (28 + A.length)) ht (by rw [hb]; simp; rfl)
    (by simp [leBytes_length])
  have r2 : b[21]? = some m.protocol := by
    rw [hb]
    simp only [leBytes, List.cons_append, List.nil_append]
    rfl
  have r3 : hrd32 b 24 = some m.rtFlags :=
    hrd32_append' (p := leBytes 4 (28 + A.length) ++ leBytes 2 m.type ++ leBytes 2 m.flags ++ leBytes 4 m.seq ++ leBytes 4 m.pid ++
      [m.family, m.dstLen, m.srcLen, m.tos, m.table, m.protocol, m.scope, m.kind]) (q := A) hfl (by rw [hb])
      (by simp [leBytes_length])
  have r4 : rdBytes b 16 12 = some ([m.family, m.dstLen, m.srcLen, m.tos, m.table, m.protocol, m.scope, m.kind] ++
      leBytes 4 m.rtFlags) := by
    rw [rdBytes_append (p := leBytes 4 (28 + A.length) ++ leBytes 2 m.type ++ leBytes 2 m.flags ++ leBytes 4 m.seq ++ leBytes 4 m.pid)
      (d := [m.family, m.dstLen, m.srcLen, m.tos, m.table, m.protocol, m.scope, m.kind] ++ leBytes 4 m.rtFlags) (q := A)
      (by simp [leBytes_length]) (by rw [hb]; simp) (by simp [leBytes_length])]
    rw [List.take_of_length_le (by simp [leBytes_length])]
  unfold filterKernelRoutes
  rw [r1]
  simp only
  by_cases h1 : m.type = 24 ∨ m.type = 25
  case neg =>
    rw [if_pos (show m.type ≠ RTM_NEWROUTE ∧ m.type ≠ RTM_DELROUTE by unfold RTM_NEWROUTE RTM_DELROUTE; omega),
      if_neg (fun h => h1 h.1)]
  rw [if_neg (show ¬ (m.type ≠ RTM_NEWROUTE ∧ m.type ≠ RTM_DELROUTE) by unfold RTM_NEWROUTE RTM_DELROUTE; omega)]
  rw [r2]
  simp only
  have hp : m.protocol.toNat = RTPROT_BABEL ↔ m.protocol = 42 :=
    ⟨fun h => UInt8.toNat.inj (by rw [h]; rfl), fun h => by rw [h]; rfl⟩
  by_cases h2 : m.protocol = 42
  case pos => rw [if_pos (hp.2 h2), if_neg (fun h => h.2.1 h2)]
  rw [if_neg (fun h => h2 (hp.1 h)), r3]
  simp only
  by_cases h3 : m.rtFlags &&& 0x200 = 0
  case neg => rw [if_pos (show m.rtFlags &&& RTM_F_CLONED ≠ 0 from h3), if_neg (fun h => h3 h.2.2.1)]
  rw [if_neg (show ¬ (m.rtFlags &&& RTM_F_CLONED ≠ 0) from fun h => h h3)]
  have e : parseKernelRouteRta (imports.map Int.ofNat) b =
      match foldRes (attrEffect m.family m.dstLen m.srcLen) m.attrs
        ⟨addrBytes m.family (List.replicate 16 0), if m.family = 2 then 96 else 0,
         addrBytes m.family (List.replicate 16 0), if m.family = 2 then 96 else 0, 0, 0, List.replicate 16 0, (m.table.toNat : Int)⟩ with
      | .ok s' => if (imports.map Int.ofNat).contains s'.table then .ok s' else .reject
      | r => r := by
    unfold parseKernelRouteRta
    rw [r4]
    simp only [List.getD_cons_zero, List.getD_cons_succ, List.cons_append, List.nil_append]
    rw [rtaLoop_attrs hA (f := attrEffect m.family m.dstLen m.srcLen)
      (fun p a q s hm ha => rtaOne_eq hm m.family m.dstLen m.srcLen (hi a ha) s)
      (leBytes 4 (28 + A.length) ++ leBytes 2 m.type ++ leBytes 2 m.flags ++ leBytes 4 m.seq ++ leBytes 4 m.pid ++
        [m.family, m.dstLen, m.srcLen, m.tos, m.table, m.protocol, m.scope, m.kind] ++ leBytes 4 m.rtFlags) hb _ (by omega)
      28 (by simp [leBytes_length]) _ (by omega)]
    have e1 : (if m.family.toNat == AF_INET then v4tov6 [0, 0, 0, 0] else zeroes16) = addrBytes m.family (List.replicate 16 0) := by
      rw [fam_beq]
      unfold addrBytes
      by_cases hf : m.family = 2
      · simp only [hf, decide_true, if_true]; decide
      · simp only [hf, decide_false, if_false]; rfl
    have e2 : (if m.family.toNat == AF_INET then 96 else 0) = if m.family = 2 then 96 else 0 := by
      rw [fam_beq]; simp only [decide_eq_true_eq]
    rw [e1, e2]
    rfl
  rw [e, foldRes_effect]
  by_cases h4 : ∀ a ∈ m.attrs, a.type = 1 ∨ a.type = 2 ∨ a.type = 5 → (if m.family = 2 then 4 else 16) ≤ a.data.length
  case neg => rw [if_neg h4, if_neg (fun h => h4 h.2.2.2.1)]
  rw [if_pos h4]
  simp only
  have htab : ((imports.map Int.ofNat).contains
      (((attrOf m.attrs 15).map (fun d => toInt (leVal (d.take 4)))).getD (m.table.toNat : Int))) = true ↔ m.tableOf ∈ imports := by
    have key : ∀ v, v < 4294967296 → (toInt v ∈ imports.map Int.ofNat ↔ v ∈ imports) := by
      intro v hv
      simp only [List.mem_map]
      constructor
      · rintro ⟨t, h5, h6⟩
        have := himp t h5
        have : t = v := by
          unfold toInt at h6
          have h7 : Int.ofNat t = (t : Int) := rfl
          rw [h7] at h6
          split at h6 <;> omega
        exact this ▸ h5
      · intro h5
        have := himp v h5
        exact ⟨v, h5, by unfold toInt; rw [if_pos this]; rfl⟩
    rw [List.contains_iff_mem]
    unfold RouteMsg.tableOf
    cases e15 : attrOf m.attrs 15 with
    | none =>
      have := key m.table.toNat (by have := m.table.toNat_lt; omega)
      have h8 : toInt m.table.toNat = (m.table.toNat : Int) := by
        unfold toInt; rw [if_pos (by have := m.table.toNat_lt; omega)]
      rw [h8] at this
      exact this
    | some d =>
      refine key _ ?_
      have h9 : (d.take 4).length ≤ 4 := by simp; omega
      exact Nat.lt_of_lt_of_le (leVal_lt (d.take 4)) (Nat.pow_le_pow_right (by omega) h9)
  by_cases h5 : m.tableOf ∈ imports
  case neg => rw [if_neg (fun h => h5 (htab.1 h)), if_neg (fun h => h5 h.2.2.2.2.1)]
  rw [if_pos (htab.2 h5)]
  simp only
  have k1 : ((attrOf m.attrs 1).map (addrBytes m.family)).getD (addrBytes m.family (List.replicate 16 0)) = m.key.prefix_ := by
    unfold RouteMsg.key prefixOf
    cases attrOf m.attrs 1 <;> rfl
  have k2 : ((attrOf m.attrs 1).map (fun _ => if m.family = 2 then m.dstLen.toNat + 96 else m.dstLen.toNat)).getD
      (if m.family = 2 then 96 else 0) = m.key.plen := by
    unfold RouteMsg.key prefixOf
    cases attrOf m.attrs 1 <;> rfl
  have k3 : ((attrOf m.attrs 2).map (addrBytes m.family)).getD (addrBytes m.family (List.replicate 16 0)) = m.key.srcPrefix := by
    unfold RouteMsg.key prefixOf
    cases attrOf m.attrs 2 <;> rfl
  have k4 : ((attrOf m.attrs 2).map (fun _ => if m.family = 2 then m.srcLen.toNat + 96 else m.srcLen.toNat)).getD
      (if m.family = 2 then 96 else 0) = m.key.srcPlen := by
    unfold RouteMsg.key prefixOf
    cases attrOf m.attrs 2 <;> rfl
  have k5 : ((attrOf m.attrs 6).map (fun d => min (leVal (d.take 4)) 65535)).getD 0 = min (intAttr m.attrs 6) 65535 := by
    unfold intAttr
    cases attrOf m.attrs 6 <;> rfl
  have k6 : ((attrOf m.attrs 4).map (fun d => leVal (d.take 4))).getD 0 = intAttr m.attrs 4 := by
    unfold intAttr
    cases attrOf m.attrs 4 <;> rfl
  rw [k1, k2, k3, k4, k5, k6]
  unfold KERNEL_INFINITY
  by_cases h6 : m.key.plen = 0 ∧ 65535 ≤ intAttr m.attrs 6
  · rw [if_pos ⟨h6.1, by omega⟩, if_neg (fun h => h.2.2.2.2.2 h6)]
  · rw [if_neg (fun h => h6 ⟨h.1, by omega⟩), if_pos ⟨h1, h2, h3, h4, h5, h6⟩]

/-- The effect of an attribute of an address message. -/
def addrEffect (fam : UInt8) (a : NlAttr) (s : AddrSt) : NlRes AddrSt :=
  if s.stop then .ok s
  else if a.type = 2 ∨ a.type = 1 then .ok ⟨some (addrBytes fam a.data), a.type == 2⟩
  else .ok s

theorem addrOne_eq {m p q : Bytes} {a : NlAttr} (hm : m = p ++ a.bytes ++ q) (fam : UInt8) (hf : fam = 2 ∨ fam = 10)
    (hi : a.type = 1 ∨ a.type = 2 → (if fam = 2 then 4 else 16) ≤ a.data.length) (s : AddrSt) :
    addrOne m fam.toNat (p.length + 4) a.type a.data.length s = addrEffect fam a s := by
  have hb : m = (p ++ leBytes 2 (4 + a.data.length) ++ leBytes 2 a.type) ++ a.data ++ q := by
    rw [hm]; simp [NlAttr.bytes]
  unfold addrOne addrEffect
  split
  · rfl
  · by_cases h : a.type = 2 ∨ a.type = 1
    · rw [if_pos (show a.type = IFA_LOCAL ∨ a.type = IFA_ADDRESS from h), if_pos h]
      have hi := hi h.symm
      rcases hf with rfl | rfl
      · rw [if_pos (show (2 : UInt8).toNat = AF_INET from rfl)]
        rw [if_pos rfl] at hi
        rw [rdBytes_append (n := 4) hi hb (by simp [leBytes_length])]
        simp only [addrBytes, if_true, v4tov6, v4prefix]
        rw [List.take_take]
        rfl
      · rw [if_neg (show ¬ (10 : UInt8).toNat = AF_INET by decide), if_pos (show (10 : UInt8).toNat = AF_INET6 from rfl)]
        rw [if_neg (by decide)] at hi
        rw [rdBytes_append (n := 16) hi hb (by simp [leBytes_length])]
        unfold addrBytes
        rw [if_neg (by decide)]
        rfl
    · rw [if_neg (show ¬ (a.type = IFA_LOCAL ∨ a.type = IFA_ADDRESS) from h), if_neg h]

theorem foldRes_addr_stop (fam : UInt8) (l : List NlAttr) (s : AddrSt) (h : s.stop = true) :
    foldRes (addrEffect fam) l s = .ok s := by
  induction l with
  | nil => rfl
  | cons a l ih =>
    rw [foldRes]
    have : addrEffect fam a s = .ok s := by unfold addrEffect; rw [if_pos h]
    rw [this]; exact ih

theorem foldRes_addr (fam : UInt8) (l : List NlAttr) (s : AddrSt) (h : s.stop = false) :
    ∃ s', foldRes (addrEffect fam) l s = .ok s' ∧ s'.addr =
      match l.find? (·.type == 2) with
      | some a => some (addrBytes fam a.data)
      | none => match attrOf l 1 with
        | some d => some (addrBytes fam d)
        | none => s.addr := by
  induction l generalizing s with
  | nil => exact ⟨s, rfl, rfl⟩
  | cons a l ih =>
    rw [foldRes, attrOf_cons]
    by_cases h2 : a.type = 2
    · have : addrEffect fam a s = .ok ⟨some (addrBytes fam a.data), true⟩ := by
        unfold addrEffect; rw [h, h2]; rfl
      rw [this]
      refine ⟨_, foldRes_addr_stop _ _ _ rfl, ?_⟩
      rw [List.find?_cons_of_pos (by simpa using h2)]
    · rw [List.find?_cons_of_neg (by simpa using h2)]
      by_cases h1 : a.type = 1
      · have : addrEffect fam a s = .ok ⟨some (addrBytes fam a.data), false⟩ := by
          unfold addrEffect; rw [h, h1]; rfl
        rw [this]
        obtain ⟨s', e1, e2⟩ := ih ⟨some (addrBytes fam a.data), false⟩ rfl
        refine ⟨s', e1, ?_⟩
        rw [e2, if_pos h1]
        cases l.find? (·.type == 2) with
        | some x => rfl
        | none => cases attrOf l 1 <;> rfl
      · have : addrEffect fam a s = .ok s := by
          unfold addrEffect
          rw [h, if_neg (by simp), if_neg (by omega)]
        rw [this]
        obtain ⟨s', e1, e2⟩ := ih s h
        refine ⟨s', e1, ?_⟩
        rw [e2, if_neg h1]
        cases l.find? (·.type == 2) with
        | some x => rfl
        | none => cases attrOf l 1 <;> rfl

theorem filterAddresses_encoded {m : AddrMsg} {b : Bytes} (hb : m.Encoded b) (ht : m.type < 65536) (hx : m.ifindex < 4294967296)
    (hf : m.family = 2 ∨ m.family = 10)
    (hi : ∀ a ∈ m.attrs, a.type = 1 ∨ a.type = 2 → (if m.family = 2 then 4 else 16) ≤ a.data.length) :
    filterAddresses b = if m.type = 20 ∨ m.type = 21 then .ok (m.address, m.ifindex) else .reject := by
  obtain ⟨A, hA, hb⟩ := hb
  have hlen : b.length = 24 + A.length := by rw [hb]; simp [leBytes_length]; omega
  have r1 : hrd16 b 4 = some m.type := hrd16_append' (p := leBytes 4 (24 + A.length)) ht (by rw [hb]; simp; rfl)
    (by simp [leBytes_length])
  have r2 : b[16]? = some m.family := by
    rw [hb]
    simp only [leBytes, List.cons_append, List.nil_append]
    rfl
  have r3 : hrd32 b 20 = some m.ifindex :=
    hrd32_append' (p := leBytes 4 (24 + A.length) ++ leBytes 2 m.type ++ leBytes 2 m.flags ++ leBytes 4 m.seq ++ leBytes 4 m.pid ++
      [m.family, m.prefixLen, m.ifaFlags, m.scope]) (q := A) hx (by rw [hb])
      (by simp [leBytes_length])
  unfold filterAddresses
  rw [r1]
  simp only
  by_cases h1 : m.type = 20 ∨ m.type = 21
  case neg =>
    rw [if_pos (show m.type ≠ RTM_NEWADDR ∧ m.type ≠ RTM_DELADDR by unfold RTM_NEWADDR RTM_DELADDR; omega), if_neg h1]
  rw [if_neg (show ¬ (m.type ≠ RTM_NEWADDR ∧ m.type ≠ RTM_DELADDR) by unfold RTM_NEWADDR RTM_DELADDR; omega), if_pos h1, r2, r3]
  simp only
  rw [rtaLoop_attrs hA (f := addrEffect m.family)
      (fun p a q s hm ha => addrOne_eq hm m.family hf (hi a ha) s)
      (leBytes 4 (24 + A.length) ++ leBytes 2 m.type ++ leBytes 2 m.flags ++ leBytes 4 m.seq ++ leBytes 4 m.pid ++
        [m.family, m.prefixLen, m.ifaFlags, m.scope] ++ leBytes 4 m.ifindex) hb _ (by omega)
      24 (by simp [leBytes_length]) _ (by omega)]
  obtain ⟨s', e1, e2⟩ := foldRes_addr m.family m.attrs ⟨none, false⟩ rfl
  rw [e1]
  simp only
  rw [e2]
  unfold AddrMsg.address
  cases m.attrs.find? (·.type == 2) with
  | some x => rfl
  | none => cases attrOf m.attrs 1 <;> rfl

end Babel
