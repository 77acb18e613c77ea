import Verif.Lemmas.Netlink3
/-
Netlink messages: the meaning of the requests.
-/
set_option linter.unusedSimpArgs false
set_option linter.unusedVariables false
namespace Babel
open Spec

theorem attrOf_append (l1 l2 : List NlAttr) (t : Nat) :
    attrOf (l1 ++ l2) t = match attrOf l2 t with
      | some d => some d
      | none => attrOf l1 t := by
  induction l1 with
  | nil => simp only [List.nil_append, attrOf_nil]; cases attrOf l2 t <;> rfl
  | cons a l ih =>
    rw [List.cons_append, attrOf_cons, ih, attrOf_cons]
    cases attrOf l2 t <;> cases attrOf l t <;> rfl

theorem attrOf_one (a : NlAttr) (t : Nat) : attrOf [a] t = if a.type = t then some a.data else none := by
  rw [attrOf_cons, attrOf_nil]

theorem v4_rebuild {a : Bytes} (h : v4mapped a = true) (hl : a.length = 16) :
    [0, 0, 0, 0, 0, 0, 0, 0, 0, 0, 0xFF, 0xFF] ++ (a.drop 12).take 4 = a := by
  have e : a.take 12 = [0, 0, 0, 0, 0, 0, 0, 0, 0, 0, 0xFF, 0xFF] := by
    unfold v4mapped at h
    simpa [v4prefix] using h
  rw [List.take_of_length_le (by simp [hl]), ← e, List.take_append_drop]

theorem addr4 {a : Bytes} (h : v4mapped a = true) (hl : a.length = 16) : addrBytes 2 (a.drop 12) = a := by
  unfold addrBytes; rw [if_pos rfl]; exact v4_rebuild h hl

theorem addr6 {a : Bytes} (hl : a.length = 16) : addrBytes 10 a = a := by
  unfold addrBytes; rw [if_neg (by decide)]; exact List.take_of_length_le (by omega)

theorem reqAttrs_1 (k : PKey) (prefSrc : Option Bytes) (gate : Bytes) (ifindex metric : Nat) :
    attrOf (reqAttrs k prefSrc gate ifindex metric) 1 = some (if v4mapped k.prefix_ then k.prefix_.drop 12 else k.prefix_) := by
  unfold reqAttrs
  cases prefSrc <;> repeat' split
  all_goals simp [attrOf_cons, attrOf_append, attrOf_nil]

theorem reqAttrs_2 (k : PKey) (prefSrc : Option Bytes) (gate : Bytes) (ifindex metric : Nat) :
    attrOf (reqAttrs k prefSrc gate ifindex metric) 2 = if !v4mapped k.prefix_ && k.isSS then some k.srcPrefix else none := by
  unfold reqAttrs
  cases prefSrc <;> repeat' split
  all_goals simp_all [attrOf_cons, attrOf_append, attrOf_nil]

theorem reqAttrs_15 (k : PKey) (prefSrc : Option Bytes) (gate : Bytes) (ifindex metric : Nat) :
    attrOf (reqAttrs k prefSrc gate ifindex metric) 15 = none := by
  unfold reqAttrs
  cases prefSrc <;> repeat' split
  all_goals simp_all [attrOf_cons, attrOf_append, attrOf_nil]

theorem reqAttrs_6 (k : PKey) (prefSrc : Option Bytes) (gate : Bytes) (ifindex metric : Nat) :
    attrOf (reqAttrs k prefSrc gate ifindex metric) 6 =
      some (leBytes 4 (if metric < KERNEL_INFINITY then metric else 4294967295)) := by
  unfold reqAttrs
  cases prefSrc <;> repeat' split
  all_goals simp_all [attrOf_cons, attrOf_append, attrOf_nil]

theorem reqAttrs_4 (k : PKey) (prefSrc : Option Bytes) (gate : Bytes) (ifindex metric : Nat) :
    attrOf (reqAttrs k prefSrc gate ifindex metric) 4 = if metric < KERNEL_INFINITY then some (leBytes 4 ifindex) else none := by
  unfold reqAttrs
  cases prefSrc <;> repeat' split
  all_goals simp_all [attrOf_cons, attrOf_append, attrOf_nil]

theorem reqAttrs_5 (k : PKey) (prefSrc : Option Bytes) (gate : Bytes) (ifindex metric : Nat) :
    attrOf (reqAttrs k prefSrc gate ifindex metric) 5 =
      if metric < KERNEL_INFINITY ∧ ¬ (v4mapped k.prefix_ = true ∧ v4mapped gate = false) then
        some (if v4mapped gate then gate.drop 12 else gate) else none := by
  unfold reqAttrs
  cases h1 : v4mapped k.prefix_ <;> cases h2 : v4mapped gate <;> by_cases h3 : metric < KERNEL_INFINITY <;> cases prefSrc <;>
    cases h4 : k.isSS
  all_goals simp [h1, h2, h3, h4, attrOf_cons, attrOf_append, attrOf_nil]

theorem reqAttrs_18 (k : PKey) (prefSrc : Option Bytes) (gate : Bytes) (ifindex metric : Nat) :
    attrOf (reqAttrs k prefSrc gate ifindex metric) 18 =
      if metric < KERNEL_INFINITY ∧ (v4mapped k.prefix_ = true ∧ v4mapped gate = false) then
        some (leBytes 2 10 ++ gate) else none := by
  unfold reqAttrs
  cases h1 : v4mapped k.prefix_ <;> cases h2 : v4mapped gate <;> by_cases h3 : metric < KERNEL_INFINITY <;> cases prefSrc <;>
    cases h4 : k.isSS
  all_goals simp [h1, h2, h3, h4, attrOf_cons, attrOf_append, attrOf_nil]

theorem reqAttrs_7 (k : PKey) (prefSrc : Option Bytes) (gate : Bytes) (ifindex metric : Nat) :
    attrOf (reqAttrs k prefSrc gate ifindex metric) 7 =
      if metric < KERNEL_INFINITY then prefSrc.map (fun a => if v4mapped a then a.drop 12 else a) else none := by
  unfold reqAttrs
  cases h1 : v4mapped k.prefix_ <;> cases h2 : v4mapped gate <;> by_cases h3 : metric < KERNEL_INFINITY <;> cases prefSrc <;>
    cases h4 : k.isSS
  all_goals simp [h1, h2, h3, h4, attrOf_cons, attrOf_append, attrOf_nil]

theorem reqMsg_key (add : Bool) (table : Nat) (k : PKey) (prefSrc : Option Bytes) (gate : Bytes)
    (ifindex metric : Nat) (seqno : UInt16) (hd : k.prefix_.length = 16) (hs : k.srcPrefix.length = 16)
    (hpl : k.plen ≤ 128) (hspl : k.srcPlen ≤ 128) (hv : v4mapped k.prefix_ = true → 96 ≤ k.plen)
    (h2 : k.isSS = true → v4mapped k.prefix_ = false) :
    (reqMsg add table k prefSrc gate ifindex metric seqno).key =
      ⟨k.prefix_, k.plen, if k.isSS then k.srcPrefix else (everything (v4mapped k.prefix_)).1,
        if k.isSS then k.srcPlen else (everything (v4mapped k.prefix_)).2⟩ := by
  unfold RouteMsg.key
  simp only [reqMsg, reqAttrs_1, reqAttrs_2, prefixOf]
  by_cases h1 : v4mapped k.prefix_ = true
  · have h3 : k.isSS = false := by
      cases e : k.isSS with
      | false => rfl
      | true => have := h2 e; rw [h1] at this; cases this
    have := hv h1
    have e : (UInt8.ofNat k.plen - 96).toNat = k.plen - 96 := by
      rw [UInt8.toNat_sub_of_le]
      · simp; omega
      · rw [UInt8.le_iff_toNat_le]; simp; omega
    have e' : k.plen - 96 + 96 = k.plen := by omega
    simp [h1, h3, addr4 h1 hd, e, e', everything, addrBytes]
    exact v4_rebuild h1 hd
  · have h1 : v4mapped k.prefix_ = false := by simpa using h1
    have e1 : (UInt8.ofNat k.plen).toNat = k.plen := by simp; omega
    have e2 : (UInt8.ofNat k.srcPlen).toNat = k.srcPlen := by simp; omega
    have e3 : ¬ ((10 : UInt8) = 2) := by decide
    by_cases h3 : k.isSS = true
    · simp [h1, h3, addr6 hd, addr6 hs, e1, e2, e3]
    · have h3 : k.isSS = false := by simpa using h3
      simp [h1, h3, addr6 hd, e1, e2, e3, everything, addrBytes]
      exact List.take_of_length_le (by omega)

theorem reqMsg_table (add : Bool) (table : Nat) (k : PKey) (prefSrc : Option Bytes) (gate : Bytes)
    (ifindex metric : Nat) (seqno : UInt16) :
    (reqMsg add table k prefSrc gate ifindex metric seqno).tableOf = table % 256 := by
  unfold RouteMsg.tableOf
  simp only [reqMsg, reqAttrs_15]
  simp

theorem reqMsg_target (add : Bool) (table : Nat) (k : PKey) (prefSrc : Option Bytes) (gate : Bytes)
    (ifindex metric : Nat) (seqno : UInt16) (hg : gate.length = 16) (hx : ifindex < 4294967296)
    (h1 : v4mapped k.prefix_ = false → v4mapped gate = false) :
    (reqMsg add table k prefSrc gate ifindex metric seqno).target =
      if metric < 65535 then some (gate, ifindex, metric) else none := by
  unfold RouteMsg.target RouteMsg.gateway intAttr
  simp only [reqMsg, reqAttrs_4, reqAttrs_5, reqAttrs_6, reqAttrs_18]
  unfold KERNEL_INFINITY
  by_cases hm : metric < 65535
  case neg => simp [hm]
  have t4 : ∀ v, v < 4294967296 → leVal ((leBytes 4 v).take 4) = v := by
    intro v hv
    rw [List.take_of_length_le (by rw [leBytes_length]; omega)]
    exact leVal_leBytes 4 v (by omega)
  simp only [hm, if_true, true_and, t4 _ hx, t4 metric (by omega)]
  cases e1 : v4mapped k.prefix_ with
  | false =>
    have e2 := h1 e1
    simp [e2, addr6 hg]
  | true =>
    cases e2 : v4mapped gate with
    | true => simp [e2, addr4 e2 hg]
    | false =>
      have e3 : leVal ((leBytes 2 10 ++ gate).take 2) = 10 := by
        rw [List.take_append_of_le_length (by simp [leBytes_length])]; decide
      have e4 : (leBytes 2 10 ++ gate).drop 2 = gate := by
        rw [List.drop_append_of_le_length (by simp [leBytes_length])]; rfl
      simp only [Bool.true_eq_false, not_true_eq_false, and_self, if_false, if_true, e3, e4]
      show Option.map _ (some (addrBytes 10 gate)) = _
      rw [addr6 hg]
      rfl

end Babel
