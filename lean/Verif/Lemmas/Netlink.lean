import Verif.Model.Netlink
import Verif.Spec.Netlink
/-
Netlink messages: construction.
-/
set_option linter.unusedSimpArgs false
set_option linter.unusedVariables false
namespace Babel
open Spec

theorem hle16_eq (n : Nat) : hle16 n = leBytes 2 n := rfl

theorem hle32_eq (n : Nat) : hle32 n = leBytes 4 n := by
  unfold hle32
  simp only [leBytes, Nat.div_div_eq_div_mul]

theorem leBytes_length (n v : Nat) : (leBytes n v).length = n := by
  induction n generalizing v with
  | zero => rfl
  | succ n ih => simp [leBytes, ih]

theorem leVal_leBytes (n v : Nat) (h : v < 256 ^ n) : leVal (leBytes n v) = v := by
  induction n generalizing v with
  | zero => simp at h; subst h; rfl
  | succ n ih =>
    simp only [leBytes, leVal]
    rw [ih (v / 256) (by rw [Nat.pow_succ] at h; omega)]
    have : (UInt8.ofNat v).toNat = v % 256 := by simp
    rw [this]; omega

theorem hrd16_append (p q : Bytes) (v : Nat) (h : v < 65536) : hrd16 (p ++ leBytes 2 v ++ q) p.length = some v := by
  unfold hrd16
  simp only [leBytes, List.append_assoc]
  have e1 : (p ++ ([UInt8.ofNat v, UInt8.ofNat (v / 256)] ++ q))[p.length]? = some (UInt8.ofNat v) := by
    rw [List.getElem?_append_right (by omega), Nat.sub_self]; rfl
  have e2 : (p ++ ([UInt8.ofNat v, UInt8.ofNat (v / 256)] ++ q))[p.length + 1]? = some (UInt8.ofNat (v / 256)) := by
    rw [List.getElem?_append_right (by omega)]
    have e : p.length + 1 - p.length = 1 := by omega
    rw [e]; rfl
  rw [e1, e2]
  simp
  omega

theorem hrd16_append' {b p q : Bytes} {i v : Nat} (h : v < 65536) (hb : b = p ++ leBytes 2 v ++ q) (hi : i = p.length) :
    hrd16 b i = some v := by
  subst hb hi; exact hrd16_append p q v h

theorem hrd32_append' {b p q : Bytes} {i v : Nat} (h : v < 4294967296) (hb : b = p ++ leBytes 4 v ++ q)
    (hi : i = p.length) : hrd32 b i = some v := by
  subst hb hi
  have e : leBytes 4 v = leBytes 2 (v % 65536) ++ leBytes 2 (v / 65536) := by
    simp only [leBytes, Nat.div_div_eq_div_mul, List.cons_append, List.nil_append]
    have h1 : UInt8.ofNat (v % 65536) = UInt8.ofNat v := by apply UInt8.toNat.inj; simp
    have h2 : UInt8.ofNat (v % 65536 / 256) = UInt8.ofNat (v / 256) := by apply UInt8.toNat.inj; simp; omega
    rw [h1, h2]
  unfold hrd32
  rw [hrd16_append' (v := v % 65536) (p := p) (q := leBytes 2 (v / 65536) ++ q) (by omega) (by rw [e]; simp) rfl,
    hrd16_append' (v := v / 65536) (p := p ++ leBytes 2 (v % 65536)) (q := q) (by omega) (by rw [e]; simp)
      (by simp [leBytes_length])]
  simp
  omega

theorem align4_le (n : Nat) : n ≤ align4 n ∧ align4 n < n + 4 ∧ align4 n % 4 = 0 := by
  unfold align4; omega

/-! ### The buffer -/

/-- The buffer contains `w`, the last attribute of which is the current one, and zeros. -/
structure Wr (b : NlBuf) (w : Bytes) : Prop where
  raw : b.raw = w ++ List.replicate (1024 - w.length) 0
  len : w.length ≤ 1024
  bad : b.bad = false
  rta : b.rta % 4 = 0
  cur : ∃ l, hrd16 b.raw b.rta = some l ∧ b.rta + l = w.length

/-- What an attribute adds. -/
def addAttr (w : Bytes) (a : NlAttr) : Bytes :=
  w ++ List.replicate (align4 w.length - w.length) 0 ++ a.bytes

theorem Spec.NlAttr.bytes_length (a : NlAttr) : a.bytes.length = 4 + a.data.length := by
  simp [NlAttr.bytes, leBytes_length]; omega

theorem store_append {b : NlBuf} {p x q : Bytes} (hb : b.raw = p ++ x ++ q) (bs : Bytes) (hl : bs.length = x.length)
    (off : Nat) (ho : off = p.length) : b.store off bs = { b with raw := p ++ bs ++ q } := by
  subst ho
  unfold NlBuf.store
  rw [if_pos (by rw [hb]; simp; omega), hb]
  congr 1
  rw [List.append_assoc p x q, List.take_left' rfl, ← List.append_assoc p x q, List.drop_left' (by simp [hl])]

theorem Wr.attr {b : NlBuf} {w : Bytes} (h : Wr b w) (t : Nat) (d : Bytes) (hs : align4 w.length + 4 + d.length ≤ 1024) :
    Wr (b.attr t d) (addAttr w ⟨t, d⟩) := by
  obtain ⟨l, hl, hw⟩ := h.cur
  have ha := align4_le w.length
  have hnext : b.next = { b with rta := align4 w.length } := by
    unfold NlBuf.next
    rw [hl]
    simp only
    have : b.rta + align4 l = align4 w.length := by
      rw [← hw]; have := h.rta; unfold align4; omega
    rw [this]
  unfold NlBuf.attr
  simp only
  rw [hnext]
  simp only
  generalize hk : align4 w.length = k at *
  have hz : List.replicate (1024 - w.length) (0 : UInt8) = List.replicate (k - w.length) 0 ++
      (List.replicate 2 0 ++ (List.replicate 2 0 ++ (List.replicate d.length 0 ++
        List.replicate (1024 - (k + 4 + d.length)) 0))) := by
    simp only [List.replicate_append_replicate]
    congr 1; omega
  have hr := h.raw
  rw [hz] at hr
  rw [store_append (b := { b with rta := k }) (p := w ++ List.replicate (k - w.length) 0) (x := List.replicate 2 0)
    (q := List.replicate 2 0 ++ (List.replicate d.length 0 ++ List.replicate (1024 - (k + 4 + d.length)) 0))
    (by show b.raw = _; rw [hr]; simp) _ (by rfl) k (by simp; omega)]
  rw [store_append (p := w ++ List.replicate (k - w.length) 0 ++ hle16 (4 + d.length)) (x := List.replicate 2 0)
    (q := List.replicate d.length 0 ++ List.replicate (1024 - (k + 4 + d.length)) 0)
    (by simp) _ (by rfl) (k + 2) (by simp [hle16]; omega)]
  rw [store_append (p := w ++ List.replicate (k - w.length) 0 ++ hle16 (4 + d.length) ++ hle16 t)
    (x := List.replicate d.length 0) (q := List.replicate (1024 - (k + 4 + d.length)) 0)
    (by simp) _ (by simp) (k + 4) (by simp [hle16]; omega)]
  have hlen : (addAttr w ⟨t, d⟩).length = k + 4 + d.length := by
    unfold addAttr
    simp [NlAttr.bytes_length, hk]; omega
  refine ⟨?_, by omega, h.bad, ha.2.2, 4 + d.length, ?_, by rw [hlen]; simp; omega⟩
  · simp only [hlen]
    unfold addAttr
    rw [hk]
    simp [NlAttr.bytes, hle16_eq]
  · exact hrd16_append' (p := w ++ List.replicate (k - w.length) 0) (v := 4 + d.length)
      (q := hle16 t ++ d ++ List.replicate (1024 - (k + 4 + d.length)) 0) (by omega) (by simp [hle16_eq])
      (by simp; omega)

theorem Wr.ipArg {b : NlBuf} {w : Bytes} (h : Wr b w) (t : Nat) (a : Bytes) (ha : a.length = 16)
    (hs : align4 w.length + 22 ≤ 1024) :
    Wr (b.ipArg t a) (addAttr w ⟨t, if v4mapped a then a.drop 12 else if t = RTA_VIA then leBytes 2 10 ++ a else a⟩) := by
  unfold NlBuf.ipArg
  by_cases h1 : v4mapped a = true
  · rw [if_pos h1, if_pos h1]
    have e : (a.drop 12).take 4 = a.drop 12 := List.take_of_length_le (by simp [ha])
    rw [e]
    exact h.attr _ _ (by simp [ha]; omega)
  · rw [if_neg h1, if_neg h1]
    have e : a.take 16 = a := List.take_of_length_le (by omega)
    rw [e]
    split
    · exact h.attr _ _ (by simp [ha, hle16]; omega)
    · exact h.attr _ _ (by omega)

theorem store_prefix {b : NlBuf} {w z : Bytes} (hb : b.raw = w ++ z) (off : Nat) (bs : Bytes)
    (hl : off + bs.length ≤ w.length) :
    b.store off bs = { b with raw := w.take off ++ bs ++ w.drop (off + bs.length) ++ z } := by
  have e : w = w.take off ++ (w.drop off).take bs.length ++ w.drop (off + bs.length) := by
    rw [List.append_assoc]
    conv => lhs; rw [← List.take_append_drop off w]
    congr 1
    conv => lhs; rw [← List.take_append_drop bs.length (w.drop off)]
    rw [List.drop_drop]
  have := store_append (b := b) (p := w.take off) (x := (w.drop off).take bs.length) (q := w.drop (off + bs.length) ++ z)
    (by rw [hb]; conv => lhs; rw [e]
        simp) bs (by simp; omega) off (by simp; omega)
  rw [this]
  simp

theorem store_lit (w z : Bytes) (r : Nat) (f : Bool) (off : Nat) (bs : Bytes) (hl : off + bs.length ≤ w.length) :
    NlBuf.store ⟨w ++ z, r, f⟩ off bs = ⟨w.take off ++ bs ++ w.drop (off + bs.length) ++ z, r, f⟩ :=
  store_prefix rfl off bs hl

/-- The header that `kernel_route` builds. -/
def reqHeader (add : Bool) (table : Nat) (k : PKey) (metric : Nat) : Bytes :=
  [0, 0, 0, 0] ++ leBytes 2 (if add then 24 else 25) ++ leBytes 2 (if add then 0x601 else 1) ++ [0, 0, 0, 0] ++ [0, 0, 0, 0] ++
  [if v4mapped k.prefix_ then 2 else 10, if v4mapped k.prefix_ then UInt8.ofNat k.plen - 96 else UInt8.ofNat k.plen,
    if k.isSS then UInt8.ofNat k.srcPlen else 0, 0, UInt8.ofNat table, 42, 0, if metric < KERNEL_INFINITY then 1 else 7] ++
  leBytes 4 (if metric < KERNEL_INFINITY then 4 else 0)

theorem header_wr (add : Bool) (table : Nat) (k : PKey) (metric : Nat) :
    Wr (kernelRouteHeader add table k metric) (reqHeader add table k metric) := by
  have key : kernelRouteHeader add table k metric =
      ⟨reqHeader add table k metric ++ List.replicate 996 0, 28, false⟩ := by
    unfold kernelRouteHeader
    have e0 : List.replicate 1024 (0 : UInt8) = [0,0,0,0,0,0,0,0,0,0,0,0,0,0,0,0,0,0,0,0,0,0,0,0,0,0,0,0] ++ List.replicate 996 0 := by
      show _ = List.replicate 28 0 ++ _
      rw [List.replicate_append_replicate]
    rw [e0]
    generalize List.replicate 996 (0 : UInt8) = z
    simp only
    unfold reqHeader
    generalize (if v4mapped k.prefix_ then UInt8.ofNat k.plen - 96 else UInt8.ofNat k.plen) = a1
    have a2 : UInt8.ofNat (if v4mapped k.prefix_ then AF_INET else AF_INET6) = if v4mapped k.prefix_ then 2 else 10 := by
      split <;> rfl
    rw [a2]
    generalize (if v4mapped k.prefix_ then (2 : UInt8) else 10) = a3
    generalize UInt8.ofNat table = a4
    generalize UInt8.ofNat k.srcPlen = a5
    have a6 : hle16 (if add then NLM_F_REQUEST + NLM_F_CREATE + NLM_F_EXCL else NLM_F_REQUEST) =
        leBytes 2 (if add then 0x601 else 1) := by cases add <;> rfl
    have a7 : hle16 (if add then RTM_NEWROUTE else RTM_DELROUTE) = leBytes 2 (if add then 24 else 25) := by
      cases add <;> rfl
    rw [a6, a7]
    have a8 : ∀ v, ∃ x y, leBytes 2 v = [x, y] := fun v => ⟨_, _, rfl⟩
    obtain ⟨x1, y1, h1⟩ := a8 (if add then 0x601 else 1)
    obtain ⟨x2, y2, h2⟩ := a8 (if add then 24 else 25)
    rw [h1, h2]
    have b1 : UInt8.ofNat RTN_UNICAST = 1 := rfl
    have b2 : UInt8.ofNat RTN_UNREACHABLE = 7 := rfl
    have b3 : UInt8.ofNat RTPROT_BABEL = 42 := rfl
    have b4 : hle32 RTNH_F_ONLINK = [4, 0, 0, 0] := by decide
    have b5 : leBytes 4 4 = [4, 0, 0, 0] := by decide
    have b6 : leBytes 4 0 = [0, 0, 0, 0] := by decide
    rw [b1, b2, b3, b4]
    cases k.isSS <;> by_cases hm : metric < KERNEL_INFINITY <;>
      simp only [hm, if_true, if_false, Bool.false_eq_true, ↓reduceIte, b5, b6] <;>
      (repeat rw [store_lit _ z _ _ _ _ (by simp)]) <;>
      simp
  rw [key]
  refine ⟨?_, ?_, rfl, (by show 28 % 4 = 0; decide), 0, ?_, ?_⟩
  · have : (reqHeader add table k metric).length = 28 := by simp [reqHeader, leBytes_length]
    rw [this]
  · simp [reqHeader, leBytes_length]
  · exact hrd16_append' (p := reqHeader add table k metric) (v := 0) (q := List.replicate 994 0) (by omega)
      (by show _ ++ List.replicate 996 0 = _ ++ List.replicate 2 0 ++ _
          rw [List.append_assoc, List.replicate_append_replicate]) (by simp [reqHeader, leBytes_length])
  · simp [reqHeader, leBytes_length]

/-! ### Lists of attributes -/

theorem Spec.NlAttr.fits_of {a : NlAttr} (h1 : a.type < 65536) (h2 : 4 + a.data.length < 65536) : a.Fits := ⟨h1, h2⟩

theorem nlattrs_snoc {l : List NlAttr} {A : Bytes} (h : NlAttrs l A) (a : NlAttr) (ha : a.Fits) :
    NlAttrs (l ++ [a]) (A ++ List.replicate (align4 A.length - A.length) 0 ++ a.bytes) := by
  induction h with
  | nil => exact .last ha
  | @last x hx =>
    have := align4_le x.bytes.length
    have hb := x.bytes_length
    have hl := NlAttrs.cons (a := x) (l := [a]) (b := a.bytes) (List.replicate (align4 x.bytes.length - x.bytes.length) 0) hx
      (by simp; omega) (by simp; omega) (.last ha)
    exact hl
  | @cons x l b pad hx h1 h2 _ ih =>
    have hb := x.bytes_length
    have e : align4 (x.bytes ++ pad ++ b).length - (x.bytes ++ pad ++ b).length = align4 b.length - b.length := by
      simp only [List.length_append]
      unfold align4; omega
    rw [e]
    have := NlAttrs.cons (a := x) pad hx h1 h2 ih
    simpa using this

/-- The buffer contains a header and attributes. -/
def Wa (b : NlBuf) (h : Bytes) (l : List NlAttr) (n : Nat) : Prop :=
  ∃ A, Wr b (h ++ A) ∧ NlAttrs l A ∧ A.length ≤ n

theorem Wa.mono {b : NlBuf} {h : Bytes} {l : List NlAttr} {n m : Nat} (hw : Wa b h l n) (hm : n ≤ m) : Wa b h l m := by
  obtain ⟨A, h1, h2, h3⟩ := hw
  exact ⟨A, h1, h2, by omega⟩

theorem Wa.attr {b : NlBuf} {h : Bytes} {l : List NlAttr} {n : Nat} (hw : Wa b h l n) (hh : h.length = 28) (t : Nat) (d : Bytes)
    (m : Nat) (hm : n + 7 + d.length ≤ m) (hm2 : m ≤ 900) (ht : t < 65536) :
    Wa (b.attr t d) h (l ++ [⟨t, d⟩]) m := by
  obtain ⟨A, h1, h2, h3⟩ := hw
  have ha := align4_le (h ++ A).length
  have hl : (h ++ A).length = 28 + A.length := by simp [hh]
  have e : align4 (h ++ A).length - (h ++ A).length = align4 A.length - A.length := by
    rw [hl]; unfold align4; omega
  have := h1.attr t d (by omega)
  unfold addAttr at this
  rw [e] at this
  refine ⟨_, ?_, nlattrs_snoc h2 ⟨t, d⟩ ⟨ht, by show 4 + d.length < _; omega⟩, ?_⟩
  · simpa using this
  · simp [NlAttr.bytes_length]; omega

theorem Wa.ipArg {b : NlBuf} {h : Bytes} {l : List NlAttr} {n : Nat} (hw : Wa b h l n) (hh : h.length = 28) (t : Nat) (a : Bytes)
    (ha : a.length = 16) (m : Nat) (hm : n + 25 ≤ m) (hm2 : m ≤ 900) (ht : t < 65536) :
    Wa (b.ipArg t a) h (l ++ [⟨t, if v4mapped a then a.drop 12 else if t = RTA_VIA then leBytes 2 10 ++ a else a⟩]) m := by
  unfold NlBuf.ipArg
  by_cases h1 : v4mapped a = true
  · rw [if_pos h1, if_pos h1]
    have e : (a.drop 12).take 4 = a.drop 12 := List.take_of_length_le (by simp [ha])
    rw [e]
    exact hw.attr hh _ _ m (by simp [ha]; omega) hm2 ht
  · rw [if_neg h1, if_neg h1]
    have e : a.take 16 = a := List.take_of_length_le (by omega)
    rw [e]
    split
    · exact hw.attr hh _ _ m (by simp [ha, hle16]; omega) hm2 ht
    · exact hw.attr hh _ _ m (by omega) hm2 ht

/-! ### The whole request -/

/-- The attributes of a request. -/
def reqAttrs (k : PKey) (prefSrc : Option Bytes) (gate : Bytes) (ifindex metric : Nat) : List NlAttr :=
  [⟨1, if v4mapped k.prefix_ then k.prefix_.drop 12 else k.prefix_⟩] ++
  (if !v4mapped k.prefix_ && k.isSS then [⟨2, k.srcPrefix⟩] else []) ++
  (if metric < KERNEL_INFINITY then
    [⟨6, leBytes 4 metric⟩, ⟨4, leBytes 4 ifindex⟩,
      (if v4mapped k.prefix_ && !v4mapped gate then ⟨18, leBytes 2 10 ++ gate⟩
       else ⟨5, if v4mapped gate then gate.drop 12 else gate⟩)] ++
    (match prefSrc with
     | some a => [⟨7, if v4mapped a then a.drop 12 else a⟩]
     | none => [])
   else [⟨6, leBytes 4 4294967295⟩])

theorem request_wa (add : Bool) (table : Nat) (k : PKey) (prefSrc : Option Bytes) (gate : Bytes)
    (ifindex metric : Nat) (hd : k.prefix_.length = 16) (hs : k.srcPrefix.length = 16) (hg : gate.length = 16)
    (hp : ∀ a, prefSrc = some a → a.length = 16) :
    Wa (kernelRouteTarget (kernelRoutePrefix (kernelRouteHeader add table k metric) k) k prefSrc gate ifindex metric)
      (reqHeader add table k metric) (reqAttrs k prefSrc gate ifindex metric) 200 := by
  have hh : (reqHeader add table k metric).length = 28 := by simp [reqHeader, leBytes_length]
  have h0 : Wa (kernelRouteHeader add table k metric) (reqHeader add table k metric) [] 0 :=
    ⟨[], by simpa using header_wr add table k metric, .nil, by simp⟩
  generalize reqHeader add table k metric = h at hh h0
  generalize kernelRouteHeader add table k metric = b at h0
  have h1 : Wa (kernelRoutePrefix b k) h
      ([⟨1, if v4mapped k.prefix_ then k.prefix_.drop 12 else k.prefix_⟩] ++
        (if !v4mapped k.prefix_ && k.isSS then [⟨2, k.srcPrefix⟩] else [])) 60 := by
    simp only [kernelRoutePrefix, RTA_DST, RTA_SRC]
    have e1 : (k.prefix_.drop 12).take 4 = k.prefix_.drop 12 := List.take_of_length_le (by simp [hd])
    have e2 : k.prefix_.take 16 = k.prefix_ := List.take_of_length_le (by omega)
    have e3 : k.srcPrefix.take 16 = k.srcPrefix := List.take_of_length_le (by omega)
    rw [e1, e2, e3]
    cases hv : v4mapped k.prefix_ with
    | true =>
      have := h0.attr hh 1 (k.prefix_.drop 12) 60 (by simp [hd]) (by omega) (by omega)
      simpa using this
    | false =>
      have h2 := h0.attr hh 1 k.prefix_ 30 (by omega) (by omega) (by omega)
      cases hss : k.isSS with
      | true =>
        have := h2.attr hh 2 k.srcPrefix 60 (by omega) (by omega) (by omega)
        simpa using this
      | false =>
        simpa using h2.mono (by omega : 30 ≤ 60)
  unfold reqAttrs
  generalize ([⟨1, if v4mapped k.prefix_ then k.prefix_.drop 12 else k.prefix_⟩] ++
        (if !v4mapped k.prefix_ && k.isSS then [⟨2, k.srcPrefix⟩] else []) : List NlAttr) = l at h1 ⊢
  generalize kernelRoutePrefix b k = b1 at h1
  simp only [kernelRouteTarget, RTA_PRIORITY, RTA_OIF, RTA_VIA, RTA_GATEWAY, RTA_PREFSRC]
  have l4 : ∀ v, (hle32 v).length = 4 := fun v => rfl
  by_cases hm : metric < KERNEL_INFINITY
  · rw [if_pos hm, if_pos hm]
    have h2 := h1.attr hh 6 (hle32 metric) 75 (by rw [l4]; omega) (by omega) (by omega)
    have h3 := h2.attr hh 4 (hle32 ifindex) 90 (by rw [l4]; omega) (by omega) (by omega)
    rw [hle32_eq, hle32_eq] at h3
    rw [hle32_eq, hle32_eq]
    have h4 : Wa (if (v4mapped k.prefix_ && !v4mapped gate) = true then
        ((b1.attr 6 (leBytes 4 metric)).attr 4 (leBytes 4 ifindex)).ipArg 18 gate
        else ((b1.attr 6 (leBytes 4 metric)).attr 4 (leBytes 4 ifindex)).ipArg 5 gate) h
        (l ++ [⟨6, leBytes 4 metric⟩, ⟨4, leBytes 4 ifindex⟩,
          (if v4mapped k.prefix_ && !v4mapped gate then ⟨18, leBytes 2 10 ++ gate⟩
           else ⟨5, if v4mapped gate then gate.drop 12 else gate⟩)]) 150 := by
      by_cases hv : (v4mapped k.prefix_ && !v4mapped gate) = true
      · rw [if_pos hv, if_pos hv]
        have := h3.ipArg hh 18 gate hg 150 (by omega) (by omega) (by omega)
        rw [if_neg (by simp at hv; simp [hv.2]), if_pos (show 18 = RTA_VIA from rfl)] at this
        simpa using this
      · rw [if_neg hv, if_neg hv]
        have := h3.ipArg hh 5 gate hg 150 (by omega) (by omega) (by omega)
        rw [if_neg (show ¬ (5 = RTA_VIA) by decide)] at this
        simpa using this
    cases prefSrc with
    | none => simpa using h4.mono (by omega : 150 ≤ 200)
    | some a =>
      have := h4.ipArg hh 7 a (hp a rfl) 200 (by omega) (by omega) (by omega)
      rw [if_neg (show ¬ (7 = RTA_VIA) by decide)] at this
      simpa using this
  · rw [if_neg hm, if_neg hm]
    have h2 := h1.attr hh 6 (hle32 4294967295) 200 (by rw [l4]; omega) (by omega) (by omega)
    rw [hle32_eq] at h2
    rw [hle32_eq]
    exact h2

/-- The message that is sent. -/
def reqMsg (add : Bool) (table : Nat) (k : PKey) (prefSrc : Option Bytes) (gate : Bytes)
    (ifindex metric : Nat) (seqno : UInt16) : RouteMsg where
  type := if add then 24 else 25
  flags := if add then 0x605 else 5
  seq := seqno.toNat
  pid := 0
  family := if v4mapped k.prefix_ then 2 else 10
  dstLen := if v4mapped k.prefix_ then UInt8.ofNat k.plen - 96 else UInt8.ofNat k.plen
  srcLen := if k.isSS then UInt8.ofNat k.srcPlen else 0
  tos := 0
  table := UInt8.ofNat table
  protocol := 42
  scope := 0
  kind := if metric < KERNEL_INFINITY then 1 else 7
  rtFlags := if metric < KERNEL_INFINITY then 4 else 0
  attrs := reqAttrs k prefSrc gate ifindex metric

theorem finish_eq {b : NlBuf} {add : Bool} {table : Nat} {k : PKey} {metric : Nat} {l : List NlAttr} {n : Nat} (hn : n ≤ 900)
    (h : Wa b (reqHeader add table k metric) l n) (seqno : UInt16) :
    ∃ A, NlAttrs l A ∧ A.length ≤ n ∧ kernelRouteFinish b seqno = some
      (leBytes 4 (28 + A.length) ++ leBytes 2 (if add then 24 else 25) ++ leBytes 2 (if add then 0x605 else 5) ++
        leBytes 4 seqno.toNat ++ leBytes 4 0 ++
        [if v4mapped k.prefix_ then 2 else 10, if v4mapped k.prefix_ then UInt8.ofNat k.plen - 96 else UInt8.ofNat k.plen,
          if k.isSS then UInt8.ofNat k.srcPlen else 0, 0, UInt8.ofNat table, 42, 0, if metric < KERNEL_INFINITY then 1 else 7] ++
        leBytes 4 (if metric < KERNEL_INFINITY then 4 else 0) ++ A) := by
  obtain ⟨A, hw, ha, hl⟩ := h
  refine ⟨A, ha, hl, ?_⟩
  obtain ⟨c, hc, hlen⟩ := hw.cur
  have hr := hw.raw
  have hbad := hw.bad
  have hwl : (reqHeader add table k metric ++ A).length = 28 + A.length := by simp [reqHeader, leBytes_length]; omega
  rw [hwl] at hlen hr
  unfold kernelRouteFinish
  have hfl : hrd16 b.raw 6 = some (if add then 0x601 else 1) := by
    rw [hr]
    unfold reqHeader
    generalize List.replicate (1024 - (28 + A.length)) (0 : UInt8) = z
    exact hrd16_append' (p := [0, 0, 0, 0] ++ leBytes 2 (if add then 24 else 25))
      (q := [0, 0, 0, 0] ++ [0, 0, 0, 0] ++
  [if v4mapped k.prefix_ then 2 else 10, if v4mapped k.prefix_ then UInt8.ofNat k.plen - 96 else UInt8.ofNat k.plen,
    if k.isSS then UInt8.ofNat k.srcPlen else 0, 0, UInt8.ofNat table, 42, 0, if metric < KERNEL_INFINITY then 1 else 7] ++
  leBytes 4 (if metric < KERNEL_INFINITY then 4 else 0) ++ A ++ z) (by split <;> omega) (by simp) (by simp [leBytes_length])
  rw [hc, hfl]
  simp only
  rw [hlen]
  have hor : hle16 ((if add = true then 0x601 else 1) ||| NLM_F_ACK) = leBytes 2 (if add then 0x605 else 5) := by
    cases add <;> rfl
  rw [hor, hle32_eq, hle32_eq]
  unfold reqHeader at hr
  generalize [if v4mapped k.prefix_ then 2 else 10, if v4mapped k.prefix_ then UInt8.ofNat k.plen - 96 else UInt8.ofNat k.plen,
    if k.isSS then UInt8.ofNat k.srcPlen else 0, 0, UInt8.ofNat table, 42, 0, if metric < KERNEL_INFINITY then 1 else 7] = f at hr ⊢
  generalize leBytes 4 (if metric < KERNEL_INFINITY then 4 else 0) = g at hr ⊢
  generalize hz : List.replicate (1024 - (28 + A.length)) (0 : UInt8) = z at hr
  have hf : (f ++ (g ++ A)).length = 12 + A.length := by
    have : b.raw.length = 1024 := by rw [hw.raw]; simp [reqHeader, leBytes_length]; omega
    rw [hr] at this
    have hz2 : z.length = 1024 - (28 + A.length) := by rw [← hz]; simp
    simp [leBytes_length, hz2] at this
    simp; omega
  rw [store_append (b := b) (p := []) (x := [0, 0, 0, 0]) (q := leBytes 2 (if add then 24 else 25) ++ leBytes 2 (if add then 0x601 else 1) ++ [0, 0, 0, 0] ++ [0, 0, 0, 0] ++ f ++ g ++ A ++ z)
    (by rw [hr]; simp) _ (by simp [leBytes_length]) 0 rfl]
  rw [store_append (p := leBytes 4 (28 + A.length) ++ leBytes 2 (if add then 24 else 25)) (x := leBytes 2 (if add then 0x601 else 1)) (q := [0, 0, 0, 0] ++ [0, 0, 0, 0] ++ f ++ g ++ A ++ z)
    (by simp) _ (by simp [leBytes_length]) 6 (by simp [leBytes_length])]
  rw [store_append (p := leBytes 4 (28 + A.length) ++ leBytes 2 (if add then 24 else 25) ++ leBytes 2 (if add then 0x605 else 5)) (x := [0, 0, 0, 0]) (q := [0, 0, 0, 0] ++ f ++ g ++ A ++ z)
    (by simp) _ (by simp [leBytes_length]) 8 (by simp [leBytes_length])]
  have b6 : leBytes 4 0 = [0, 0, 0, 0] := by decide
  have hlen2 : (leBytes 4 (28 + A.length) ++ leBytes 2 (if add then 24 else 25) ++ leBytes 2 (if add then 0x605 else 5) ++
      leBytes 4 seqno.toNat ++ [0, 0, 0, 0] ++ f ++ g ++ A).length = 28 + A.length := by
    simp [leBytes_length] at hf ⊢; omega
  have hz2 : z.length = 1024 - (28 + A.length) := by rw [← hz]; simp
  have e : leBytes 4 (28 + A.length) ++ leBytes 2 (if add then 24 else 25) ++ leBytes 2 (if add then 0x605 else 5) ++
      leBytes 4 seqno.toNat ++ ([0, 0, 0, 0] ++ [0, 0, 0, 0] ++ f ++ g ++ A ++ z).drop 4 =
      (leBytes 4 (28 + A.length) ++ leBytes 2 (if add then 24 else 25) ++ leBytes 2 (if add then 0x605 else 5) ++
      leBytes 4 seqno.toNat ++ [0, 0, 0, 0] ++ f ++ g ++ A) ++ z := by simp
  have e' : leBytes 4 (28 + A.length) ++ leBytes 2 (if add then 24 else 25) ++ leBytes 2 (if add then 0x605 else 5) ++
      leBytes 4 seqno.toNat ++ ([0, 0, 0, 0] ++ f ++ g ++ A ++ z) =
      (leBytes 4 (28 + A.length) ++ leBytes 2 (if add then 24 else 25) ++ leBytes 2 (if add then 0x605 else 5) ++
      leBytes 4 seqno.toNat ++ [0, 0, 0, 0] ++ f ++ g ++ A) ++ z := by simp
  rw [e', b6]
  rw [if_neg (by simp only [hbad, List.length_append (bs := z), hlen2, hz2]; simp)]
  rw [List.take_left' hlen2]

theorem request_eq (subtrees add : Bool) (table : Nat) (k : PKey) (prefSrc : Option Bytes) (gate : Bytes)
    (ifindex metric : Nat) (seqno : UInt16) (hd : k.prefix_.length = 16) (hs : k.srcPrefix.length = 16) (hg : gate.length = 16)
    (hp : ∀ a, prefSrc = some a → a.length = 16) (h1 : familyOk k gate = true)
    (h2 : (k.isSS && (v4mapped k.prefix_ || !subtrees)) = false) (h3 : skippedDefault k metric = false) :
    ∃ b, kernelRouteMsg subtrees add table k prefSrc gate ifindex metric seqno = .send b ∧
      (reqMsg add table k prefSrc gate ifindex metric seqno).Encoded b ∧ b.length ≤ 228 := by
  unfold kernelRouteMsg
  rw [h1, h2, h3]
  obtain ⟨A, x1, x2, x3⟩ := finish_eq (by omega) (request_wa add table k prefSrc gate ifindex metric hd hs hg hp) seqno
  simp only [Bool.not_true, Bool.false_eq_true, if_false, x3]
  refine ⟨_, rfl, ⟨A, x1, rfl⟩, ?_⟩
  simp [leBytes_length]; omega

end Babel
