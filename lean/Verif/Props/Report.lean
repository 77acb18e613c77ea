import Verif.Lemmas.Report
/-
C79: what is written to the clients of the local socket can be read back.
-/
set_option linter.unusedSimpArgs false
namespace Babel
open Babel.Spec

/-! ### Addresses, prefixes, router-ids, numbers -/

/-- C79: an address is written so that the daemon's own reader reads the same address. -/
theorem C79_address {L : Libc} {T : Ntop} (hT : NtopOk L T) (a : Bytes) (ha : a.length = 16) :
    parseAddress L (formatAddress T a) = some (a, if v4mapped a then .v4 else .v6) := by
  unfold parseAddress formatAddress
  by_cases h : v4mapped a = true
  · rw [if_pos h, hT.read4 _ (by simp [ha]), if_pos h]
    simp only [v4tov6_drop ha h]
  · rw [if_neg h, (hT.read6 a ha).1, (hT.read6 a ha).2, if_neg h]

/-- C79: a prefix is written so that the daemon's own reader reads the same prefix of the same
length. -/
theorem C79_prefix {L : Libc} {T : Ntop} (hT : NtopOk L T) (p : Bytes) (n : Nat) (hp : NetOk (p, n)) :
    parseNet L (formatPrefix T p n) = some (p, n, if n ≥ 96 ∧ v4mapped p then .v4 else .v6) := by
  have hl : p.length = 16 := hp.1
  have hn : n ≤ 128 := hp.2.1
  unfold formatPrefix
  by_cases h : n ≥ 96 ∧ v4mapped p = true
  · rw [if_pos h, if_pos h, parseNet_slash (fun c hc => (v4_chars hT (by simp [hl]) c hc).2.2.1)
      (by have := (hT.len4 (p.drop 12) (by simp [hl])).2; omega), hT.read4 _ (by simp [hl]),
      strtol_dec 3 _ (by omega) (by omega) (by omega)]
    simp only [v4tov6_drop hl h.2]
    rw [if_neg (by omega), show ((n - 96 : Nat) : Int).toNat + 96 = n by omega, normalize_self hp]
  · rw [if_neg h, if_neg h, parseNet_slash (fun c hc => (v6_chars hT hl c hc).2.2.1) (hT.len6 p hl),
      (hT.read6 p hl).1, (hT.read6 p hl).2, strtol_dec 3 _ (by omega) (by omega) (by omega)]
    simp only
    rw [if_neg (by omega), Int.toNat_natCast, normalize_self hp]

/-- C79: a router-id is written as pairs of hexadecimal digits. -/
theorem C79_id (id : Bytes) (h : id ≠ []) : IdText (formatEui64 id) id := by
  unfold IdText
  rw [eui64_split id h]
  refine ⟨by simp, fun i hi => ?_⟩
  have : (id.map hex2).getD i [] = hex2 id[i] := by simp [List.getD, hi]
  rw [this]
  exact hex2_spells _

/-- C79: a time in thousandths is written so that the daemon's own reader reads the same number. -/
theorem C79_thousands (v : Nat) (h : v < 2147483000) : parseThousands (formatThousands v) = v := by
  have hw := decDigits_len 3 (v % 1000)
  have h1 : decValue (decDigits 7 (v / 1000)) = v / 1000 := decValue_decDigits 7 _ (by omega)
  have h2 : decValue (List.replicate (3 - (decDigits 3 (v % 1000)).length) 48 ++ decDigits 3 (v % 1000)) = v % 1000 := by
    rw [decValue_zeros]; exact decValue_decDigits 3 _ (by omega)
  have h3 := C06_thousands_fixed_partial [] (decDigits 7 (v / 1000))
    (List.replicate (3 - (decDigits 3 (v % 1000)).length) 48 ++ decDigits 3 (v % 1000)) []
    (by simp) (decDigits_mem _ _) (by
      intro c hc
      simp only [List.mem_append, List.mem_replicate] at hc
      rcases hc with ⟨_, rfl⟩ | hc
      · exact ⟨by decide, by decide⟩
      · exact decDigits_mem _ _ c hc) (by simp) (by simp; omega) (by rw [h1]; omega)
  have h4 : (List.replicate (3 - (decDigits 3 (v % 1000)).length) (48 : UInt8) ++ decDigits 3 (v % 1000)).length = 3 := by
    simp; omega
  rw [h1, h2, h4] at h3
  simp only [List.nil_append, List.append_nil] at h3
  unfold formatThousands
  simp only
  rw [h3]
  omega

/-- C79: the static buffers are large enough: 46 characters for an address, 50 for a prefix, 28 for a
router-id, 15 for a number, 64 for the RTT. -/
theorem C79_buffers {L : Libc} {T : Ntop} (hT : NtopOk L T) (a : Bytes) (ha : a.length = 16) (n : Nat)
    (id : Bytes) (hi : id.length = 8) (v : Nat) (c : Nat) :
    (formatAddress T a).length < 46 ∧ (formatPrefix T a n).length < 50 ∧ (formatEui64 id).length < 28 ∧
    (formatThousands v).length < 15 ∧
    (ascii " rtt " ++ formatThousands v ++ ascii " rttcost " ++ decDigits 10 c).length < 64 := by
  have h1 := address_length hT ha
  have h2 := prefix_length hT (n := n) ha
  have h3 := eui64_length id (by rintro rfl; simp at hi)
  have h4 := thousands_length v
  have h5 := decDigits_len 10 c
  have h6 : (ascii " rtt ").length = 5 := by decide +kernel
  have h7 : (ascii " rttcost ").length = 9 := by decide +kernel
  refine ⟨by omega, by omega, by omega, by omega, ?_⟩
  simp only [List.length_append]
  omega

/-! ### Lines -/

theorem kind_plain (k : NKind) : PlainWord (kindText k) := by
  unfold PlainWord
  cases k <;> decide +kernel

theorem kind_length (k : NKind) : (kindText k).length ≤ 6 := by
  cases k <;> decide +kernel

theorem kind_word (k : NKind) : kindText k = kindWord k := by cases k <;> rfl

theorem plain_ascii {s : String} (h : (ascii s).all (fun c => c != 32 && c != 10) = true) : PlainWord (ascii s) := by
  intro c hc
  have := List.all_eq_true.1 h c hc
  simpa using this

theorem sp_around (s t : String) (h : ascii s = 32 :: (ascii t ++ [32])) (w r : Bytes) :
    w ++ (ascii s ++ r) = w ++ 32 :: (ascii t ++ 32 :: r) := by rw [h]; simp

theorem routeLine_join (T : Ntop) (kind : NKind) (r : RouteRep) : routeLine T kind r = joinSp [kindWord kind, ascii "route", hexDigits 16 r.ptr, ascii "prefix",
        formatPrefix T r.pfx r.plen, ascii "from", formatPrefix T r.src r.srcPlen, ascii "installed",
        yesNo r.installed, ascii "id", formatEui64 r.rid, ascii "metric",
        decDigits 10 r.metric, ascii "refmetric", decDigits 10 r.refmetric, ascii "via", formatAddress T r.via,
        ascii "if", r.ifname] ++ [10] := by
  unfold routeLine
  simp only [joinSp, List.append_assoc, kind_word, List.cons_append]
  rw [sp_around " route " "route" (by decide +kernel), sp_around " prefix " "prefix" (by decide +kernel),
    sp_around " from " "from" (by decide +kernel), sp_around " installed " "installed" (by decide +kernel),
    sp_around " id " "id" (by decide +kernel), sp_around " metric " "metric" (by decide +kernel),
    sp_around " refmetric " "refmetric" (by decide +kernel), sp_around " via " "via" (by decide +kernel),
    sp_around " if " "if" (by decide +kernel)]

theorem routeLine_length {L : Libc} {T : Ntop} (hT : NtopOk L T) (kind : NKind) (r : RouteRep) (hp : r.pfx.length = 16)
    (hs : r.src.length = 16) (hid : r.rid.length = 8) (hv : r.via.length = 16) (hn : IfName r.ifname) : (routeLine T kind r).length < 512 := by
  have hid0 : r.rid ≠ [] := by intro h; rw [h] at hid; simp at hid
  have h1 := kind_length kind
  have h2 := hexDigits_length 16 r.ptr
  have h3 := prefix_length hT (n := r.plen) hp
  have h4 := prefix_length hT (n := r.srcPlen) hs
  have h5 := eui64_length r.rid hid0
  have h6 := decDigits_len 10 r.metric
  have h7 := decDigits_len 10 r.refmetric
  have h8 := address_length hT hv
  have h9 := hn.1
  have l1 : (ascii " route ").length = 7 := by decide +kernel
  have l2 : (ascii " prefix ").length = 8 := by decide +kernel
  have l3 : (ascii " from ").length = 6 := by decide +kernel
  have l4 : (ascii " installed ").length = 11 := by decide +kernel
  have l5 : (yesNo r.installed).length ≤ 3 := by cases r.installed <;> decide +kernel
  have l6 : (ascii " id ").length = 4 := by decide +kernel
  have l7 : (ascii " metric ").length = 8 := by decide +kernel
  have l8 : (ascii " refmetric ").length = 11 := by decide +kernel
  have l9 : (ascii " via ").length = 5 := by decide +kernel
  have l10 : (ascii " if ").length = 4 := by decide +kernel
  unfold routeLine
  simp only [List.length_append, List.length_cons, List.length_nil]
  omega

/-- C79: the line about a route says what kind of event it is and, in fields with names, everything
about the route; each value is read back by the daemon's own readers.  It fits in the buffer. -/
theorem C79_route {L : Libc} {T : Ntop} (hT : NtopOk L T) (kind : NKind) (r : RouteRep) (hp : NetOk (r.pfx, r.plen))
    (hs : NetOk (r.src, r.srcPlen)) (hid : r.rid.length = 8) (hv : r.via.length = 16) (hn : IfName r.ifname)
    (hptr : r.ptr < 2 ^ 64) (hm : r.metric < 2 ^ 31) (hf : r.refmetric < 2 ^ 16) :
    ∃ h P S I m f V,
      readReport (routeLine T kind r) = some ⟨kindWord kind, ascii "route", h,
        [(ascii "prefix", P), (ascii "from", S), (ascii "installed", if r.installed then ascii "yes" else ascii "no"),
         (ascii "id", I), (ascii "metric", m), (ascii "refmetric", f), (ascii "via", V), (ascii "if", r.ifname)]⟩ ∧
      Digits 16 0 h r.ptr ∧ (∃ af, parseNet L P = some (r.pfx, r.plen, af)) ∧
      (∃ af, parseNet L S = some (r.src, r.srcPlen, af)) ∧ IdText I r.rid ∧
      strtol m = some (r.metric : Int) ∧ strtol f = some (r.refmetric : Int) ∧
      (∃ af, parseAddress L V = some (r.via, af)) ∧ (routeLine T kind r).length < 512 := by
  have hid0 : r.rid ≠ [] := by intro h; rw [h] at hid; simp at hid
  refine ⟨hexDigits 16 r.ptr, formatPrefix T r.pfx r.plen, formatPrefix T r.src r.srcPlen, formatEui64 r.rid,
    decDigits 10 r.metric, decDigits 10 r.refmetric, formatAddress T r.via, ?_, hexDigits_digits 16 _ (by omega),
    ⟨_, C79_prefix hT _ _ hp⟩, ⟨_, C79_prefix hT _ _ hs⟩, C79_id _ hid0, strtol_dec 10 _ (by omega) (by omega) (by omega),
    strtol_dec 10 _ (by omega) (by omega) (by omega), ⟨_, C79_address hT _ hv⟩,
    routeLine_length hT kind r hp.1 hs.1 hid hv hn⟩
  · rw [routeLine_join]
    apply readReport_join
    · simp only [List.forall_mem_cons]
      refine ⟨kind_word kind ▸ kind_plain kind, plain_ascii (by decide +kernel), digits_plain (hexDigits_digits 16 _ (by omega)),
        plain_ascii (by decide +kernel), prefix_plain hT hp.1, plain_ascii (by decide +kernel), prefix_plain hT hs.1,
        plain_ascii (by decide +kernel), ?_, plain_ascii (by decide +kernel), eui64_plain _, plain_ascii (by decide +kernel),
        dec_plain _ _, plain_ascii (by decide +kernel), dec_plain _ _, plain_ascii (by decide +kernel), address_chars hT hv,
        plain_ascii (by decide +kernel), hn.2, by simp⟩
      unfold yesNo
      split
      · exact plain_ascii (by decide +kernel)
      · exact plain_ascii (by decide +kernel)
    · rfl

/-- C79: the same for the line about a redistributed route. -/
theorem C79_xroute {L : Libc} {T : Ntop} (hT : NtopOk L T) (kind : NKind) (p : Bytes) (plen : Nat) (sp : Bytes)
    (splen metric : Nat) (hp : NetOk (p, plen)) (hs : NetOk (sp, splen)) (hm : metric < 2 ^ 16) :
    ∃ P S m,
      readReport (xrouteLine T kind p plen sp splen metric) = some ⟨kindWord kind, ascii "xroute", P ++ 45 :: S,
        [(ascii "prefix", P), (ascii "from", S), (ascii "metric", m)]⟩ ∧
      (∃ af, parseNet L P = some (p, plen, af)) ∧ (∃ af, parseNet L S = some (sp, splen, af)) ∧
      splitOn 45 (P ++ 45 :: S) = [P, S] ∧ strtol m = some (metric : Int) ∧
      (xrouteLine T kind p plen sp splen metric).length < 512 := by
  refine ⟨formatPrefix T p plen, formatPrefix T sp splen, decDigits 10 metric, ?_,
    ⟨_, C79_prefix hT _ _ hp⟩, ⟨_, C79_prefix hT _ _ hs⟩, ?_, strtol_dec 10 _ (by omega) (by omega) (by omega), ?_⟩
  · have e : xrouteLine T kind p plen sp splen metric = joinSp [kindWord kind, ascii "xroute",
        formatPrefix T p plen ++ 45 :: formatPrefix T sp splen, ascii "prefix",
        formatPrefix T p plen, ascii "from", formatPrefix T sp splen, ascii "metric",
        decDigits 10 metric] ++ [10] := by
      simp only [xrouteLine, joinSp, List.append_assoc, kind_word, List.cons_append]
      rw [sp_around " xroute " "xroute" (by decide +kernel), sp_around " prefix " "prefix" (by decide +kernel),
        sp_around " from " "from" (by decide +kernel), sp_around " metric " "metric" (by decide +kernel),
        show ascii "-" = [45] by decide +kernel]
      rfl
    rw [e]
    apply readReport_join
    · simp only [List.forall_mem_cons]
      refine ⟨kind_word kind ▸ kind_plain kind, plain_ascii (by decide +kernel), ?_,
        plain_ascii (by decide +kernel), prefix_plain hT hp.1, plain_ascii (by decide +kernel), prefix_plain hT hs.1,
        plain_ascii (by decide +kernel), dec_plain _ _, by simp⟩
      intro c hc
      simp only [List.mem_append, List.mem_cons] at hc
      rcases hc with hc | rfl | hc
      · exact prefix_plain hT hp.1 c hc
      · decide
      · exact prefix_plain hT hs.1 c hc
    · rfl
  · rw [splitOn_append _ (fun c hc => (prefix_chars hT hp.1 c hc).2.2),
      splitOn_word (fun c hc => (prefix_chars hT hs.1 c hc).2.2)]
  · have h1 := kind_length kind
    have h3 : (formatPrefix T p plen).length ≤ 49 := prefix_length hT hp.1
    have h4 : (formatPrefix T sp splen).length ≤ 49 := prefix_length hT hs.1
    have h6 := decDigits_len 10 metric
    have l1 : (ascii " xroute ").length = 8 := by decide +kernel
    have l2 : (ascii " prefix ").length = 8 := by decide +kernel
    have l3 : (ascii " from ").length = 6 := by decide +kernel
    have l7 : (ascii " metric ").length = 8 := by decide +kernel
    have l8 : (ascii "-").length = 1 := by decide +kernel
    simp only [xrouteLine, List.length_append, List.length_cons, List.length_nil]
    omega

/-- C79: the same for the line about a neighbour; there are fields for the RTT exactly if it is
valid. -/
theorem C79_neighbour {L : Libc} {T : Ntop} (hT : NtopOk L T) (kind : NKind) (n : NbrRep) (ha : n.address.length = 16)
    (hn : IfName n.ifname) (hptr : n.ptr < 2 ^ 64) (hr : n.reach < 2 ^ 16) (hu : n.ureach < 2 ^ 16)
    (hrx : n.rxcost < 2 ^ 32) (htx : n.txcost < 2 ^ 32) (hc : n.cost < 2 ^ 32)
    (hrtt : ∀ t c, n.rtt = some (t, c) → t < 2147483000 ∧ c < 2 ^ 32) :
    ∃ h A R U x y z rf,
      readReport (nbrLine T kind n) = some ⟨kindWord kind, ascii "neighbour", h,
        [(ascii "address", A), (ascii "if", n.ifname), (ascii "reach", R), (ascii "ureach", U),
         (ascii "rxcost", x), (ascii "txcost", y)] ++ rf ++ [(ascii "cost", z)]⟩ ∧
      Digits 16 0 h n.ptr ∧ (∃ af, parseAddress L A = some (n.address, af)) ∧
      Digits 16 0 R n.reach ∧ R.length = 4 ∧ Digits 16 0 U n.ureach ∧ U.length = 4 ∧
      strtol x = some (n.rxcost : Int) ∧ strtol y = some (n.txcost : Int) ∧ strtol z = some (n.cost : Int) ∧
      (n.rtt = none → rf = []) ∧
      (∀ t c, n.rtt = some (t, c) → ∃ v w, rf = [(ascii "rtt", v), (ascii "rttcost", w)] ∧
        parseThousands v = t ∧ strtol w = some (c : Int)) ∧
      (nbrLine T kind n).length < 512 := by
  have hrt : rttText n.rtt = (match n.rtt with
      | none => []
      | some (t, c) => ascii " rtt " ++ formatThousands t ++ ascii " rttcost " ++ decDigits 10 c) := by
    unfold rttText
    cases n.rtt with
    | none => rfl
    | some x =>
      obtain ⟨t, c⟩ := x
      have := (C79_buffers hT n.address ha 0 [0, 0, 0, 0, 0, 0, 0, 0] rfl t c).2.2.2.2
      simp only
      rw [if_neg (by omega)]
  refine ⟨hexDigits 16 n.ptr, formatAddress T n.address, hex4 n.reach, hex4 n.ureach,
    decDigits 10 n.rxcost, decDigits 10 n.txcost, decDigits 10 n.cost,
    (match n.rtt with
      | none => []
      | some (t, c) => [(ascii "rtt", formatThousands t), (ascii "rttcost", decDigits 10 c)]),
    ?_, hexDigits_digits 16 _ (by omega), ⟨_, C79_address hT _ ha⟩, hex4_digits hr, hex4_length _, hex4_digits hu, hex4_length _,
    strtol_dec 10 _ (by omega) (by omega) (by omega),
    strtol_dec 10 _ (by omega) (by omega) (by omega), strtol_dec 10 _ (by omega) (by omega) (by omega), ?_, ?_, ?_⟩
  · have e : nbrLine T kind n = joinSp ([kindWord kind, ascii "neighbour", hexDigits 16 n.ptr, ascii "address",
        formatAddress T n.address, ascii "if", n.ifname, ascii "reach", hex4 n.reach, ascii "ureach", hex4 n.ureach,
        ascii "rxcost", decDigits 10 n.rxcost, ascii "txcost", decDigits 10 n.txcost] ++
        ((match n.rtt with
          | none => []
          | some (t, c) => [ascii "rtt", formatThousands t, ascii "rttcost", decDigits 10 c]) ++
        [ascii "cost", decDigits 10 n.cost])) ++ [10] := by
      unfold nbrLine
      rw [hrt]
      cases n.rtt with
      | none =>
        simp only [joinSp, List.append_assoc, kind_word, List.cons_append, List.nil_append]
        rw [sp_around " neighbour " "neighbour" (by decide +kernel), sp_around " address " "address" (by decide +kernel),
          sp_around " if " "if" (by decide +kernel), sp_around " reach " "reach" (by decide +kernel),
          sp_around " ureach " "ureach" (by decide +kernel), sp_around " rxcost " "rxcost" (by decide +kernel),
          sp_around " txcost " "txcost" (by decide +kernel), sp_around " cost " "cost" (by decide +kernel)]
      | some x =>
        obtain ⟨t, c⟩ := x
        simp only [joinSp, List.append_assoc, kind_word, List.cons_append, List.nil_append]
        rw [sp_around " neighbour " "neighbour" (by decide +kernel), sp_around " address " "address" (by decide +kernel),
          sp_around " if " "if" (by decide +kernel), sp_around " reach " "reach" (by decide +kernel),
          sp_around " ureach " "ureach" (by decide +kernel), sp_around " rxcost " "rxcost" (by decide +kernel),
          sp_around " txcost " "txcost" (by decide +kernel), sp_around " cost " "cost" (by decide +kernel),
          sp_around " rtt " "rtt" (by decide +kernel), sp_around " rttcost " "rttcost" (by decide +kernel)]
    rw [e]
    apply readReport_join (ws := [ascii "address",
        formatAddress T n.address, ascii "if", n.ifname, ascii "reach", hex4 n.reach, ascii "ureach", hex4 n.ureach,
        ascii "rxcost", decDigits 10 n.rxcost, ascii "txcost", decDigits 10 n.txcost] ++ _)
    · simp only [List.cons_append, List.nil_append, List.forall_mem_cons]
      refine ⟨kind_word kind ▸ kind_plain kind, plain_ascii (by decide +kernel), digits_plain (hexDigits_digits 16 _ (by omega)),
        plain_ascii (by decide +kernel), address_chars hT ha, plain_ascii (by decide +kernel), hn.2,
        plain_ascii (by decide +kernel), digits_plain (hex4_digits hr), plain_ascii (by decide +kernel),
        digits_plain (hex4_digits hu), plain_ascii (by decide +kernel),
        dec_plain _ _, plain_ascii (by decide +kernel), dec_plain _ _, ?_⟩
      cases n.rtt with
      | none =>
        simp only [List.nil_append, List.forall_mem_cons]
        exact ⟨plain_ascii (by decide +kernel), dec_plain _ _, by simp⟩
      | some x =>
        simp only [List.cons_append, List.nil_append, List.forall_mem_cons]
        exact ⟨plain_ascii (by decide +kernel), thousands_chars _, plain_ascii (by decide +kernel), dec_plain _ _,
          plain_ascii (by decide +kernel), dec_plain _ _, by simp⟩
    · cases n.rtt <;> rfl
  · intro h; simp [h]
  · intro t c h
    refine ⟨formatThousands t, decDigits 10 c, by simp [h], C79_thousands t (hrtt t c h).1, ?_⟩
    have := (hrtt t c h).2
    exact strtol_dec 10 _ (by omega) (by omega) (by omega)
  · have h1 := kind_length kind
    have h2 := hexDigits_length 16 n.ptr
    have h3 := address_length hT ha
    have h4 := hex4_length n.reach
    have h5 := hex4_length n.ureach
    have h6 := decDigits_len 10 n.rxcost
    have h7 := decDigits_len 10 n.txcost
    have h8 := decDigits_len 10 n.cost
    have h9 := hn.1
    have h10 : (rttText n.rtt).length < 64 := by
      unfold rttText
      split
      · simp
      · simp only
        split
        · simp
        · omega
    have l1 : (ascii " neighbour ").length = 11 := by decide +kernel
    have l2 : (ascii " address ").length = 9 := by decide +kernel
    have l3 : (ascii " if ").length = 4 := by decide +kernel
    have l4 : (ascii " reach ").length = 7 := by decide +kernel
    have l5 : (ascii " ureach ").length = 8 := by decide +kernel
    have l6 : (ascii " rxcost ").length = 8 := by decide +kernel
    have l7 : (ascii " txcost ").length = 8 := by decide +kernel
    have l8 : (ascii " cost ").length = 6 := by decide +kernel
    simp only [nbrLine, List.length_append, List.length_cons, List.length_nil]
    omega

/-- C79: the same for the line about an interface: whether it is up, and if so its first link-local
address and its IPv4 address, as far as it has them. -/
theorem C79_interface {L : Libc} {T : Ntop} (hT : NtopOk L T) (kind : NKind) (name : Bytes) (up : Bool) (ll : List Bytes)
    (ipv4 : Option Bytes) (hn : IfName name) (hl : ∀ a ∈ ll, a.length = 16) (h4 : ∀ a, ipv4 = some a → a.length = 4) :
    ∃ f6 f4,
      readReport (ifLine T kind name up ll ipv4) = some ⟨kindWord kind, ascii "interface", name,
        [(ascii "up", if up then ascii "true" else ascii "false")] ++ f6 ++ f4⟩ ∧
      (up = false ∨ ll = [] → f6 = []) ∧
      (∀ a as, up = true → ll = a :: as → ∃ A af, f6 = [(ascii "ipv6", A)] ∧ parseAddress L A = some (a, af)) ∧
      (up = false ∨ ipv4 = none → f4 = []) ∧
      (∀ a, up = true → ipv4 = some a → ∃ A, f4 = [(ascii "ipv4", A)] ∧ parseAddress L A = some (v4tov6 a, .v4)) ∧
      (ifLine T kind name up ll ipv4).length < 512 := by
  have k1 := kind_length kind
  have k2 := hn.1
  have l1 : (ascii " interface ").length = 11 := by decide +kernel
  have l2 : (ascii " up true").length = 8 := by decide +kernel
  have l3 : (ascii " up false").length = 9 := by decide +kernel
  have l4 : (ascii " ipv6 ").length = 6 := by decide +kernel
  have l5 : (ascii " ipv4 ").length = 6 := by decide +kernel
  have s1 : ascii " up true" = 32 :: (ascii "up" ++ 32 :: ascii "true") := by decide +kernel
  have s2 : ascii " up false" = 32 :: (ascii "up" ++ 32 :: ascii "false") := by decide +kernel
  have q1 : PlainWord (kindWord kind) := kind_word kind ▸ kind_plain kind
  have q2 : PlainWord (ascii "interface") := plain_ascii (by decide +kernel)
  have q3 : PlainWord (ascii "up") := plain_ascii (by decide +kernel)
  have q4 : PlainWord (ascii "true") := plain_ascii (by decide +kernel)
  have q5 : PlainWord (ascii "false") := plain_ascii (by decide +kernel)
  have q6 : PlainWord (ascii "ipv6") := plain_ascii (by decide +kernel)
  have q7 : PlainWord (ascii "ipv4") := plain_ascii (by decide +kernel)
  have r4 : ∀ a, a.length = 4 → parseAddress L (T.v4 a) = some (v4tov6 a, .v4) := fun a ha => by
    unfold parseAddress
    rw [hT.read4 a ha]
  have p4 : ∀ a, a.length = 4 → PlainWord (T.v4 a) := fun a ha c hc =>
    have := v4_chars hT ha c hc; ⟨this.1, this.2.1⟩
  cases up with
  | false =>
    refine ⟨[], [], ?_, fun _ => rfl, (fun _ _ h => by cases h), fun _ => rfl, (fun _ h => by cases h), ?_⟩
    · have e : ifLine T kind name false ll ipv4 =
          joinSp [kindWord kind, ascii "interface", name, ascii "up", ascii "false"] ++ [10] := by
        unfold ifLine
        simp only [joinSp, List.append_assoc, kind_word, List.cons_append, Bool.false_eq_true, if_false, s2]
        rw [sp_around " interface " "interface" (by decide +kernel)]
      rw [e]
      exact readReport_join (by
        simp only [List.forall_mem_cons]
        exact ⟨q1, q2, hn.2, q3, q5, by simp⟩) rfl
    · unfold ifLine
      simp only [Bool.false_eq_true, if_false, List.length_append, List.length_cons, List.length_nil]
      omega
  | true =>
    refine ⟨(match ll with
        | a :: _ => [(ascii "ipv6", formatAddress T a)]
        | [] => []), (match ipv4 with
        | some a => [(ascii "ipv4", T.v4 a)]
        | none => []), ?_, ?_, ?_, ?_, ?_, ?_⟩
    · cases ll with
      | nil =>
        cases ipv4 with
        | none =>
          have e : ifLine T kind name true [] none =
              joinSp [kindWord kind, ascii "interface", name, ascii "up", ascii "true"] ++ [10] := by
            unfold ifLine
            simp only [joinSp, List.append_assoc, kind_word, List.cons_append, if_true, s1, List.nil_append]
            rw [sp_around " interface " "interface" (by decide +kernel)]
          rw [e]
          exact readReport_join (by
            simp only [List.forall_mem_cons]
            exact ⟨q1, q2, hn.2, q3, q4, by simp⟩) rfl
        | some b =>
          have hb := h4 b rfl
          have e : ifLine T kind name true [] (some b) =
              joinSp [kindWord kind, ascii "interface", name, ascii "up", ascii "true", ascii "ipv4", T.v4 b] ++ [10] := by
            unfold ifLine
            simp only [joinSp, List.append_assoc, kind_word, List.cons_append, if_true, s1, List.nil_append, if_neg (hT.len4 b hb).1]
            rw [sp_around " interface " "interface" (by decide +kernel), sp_around " ipv4 " "ipv4" (by decide +kernel)]
          rw [e]
          exact readReport_join (by
            simp only [List.forall_mem_cons]
            exact ⟨q1, q2, hn.2, q3, q4, q7, p4 b hb, by simp⟩) rfl
      | cons a as =>
        have ha := hl a (by simp)
        cases ipv4 with
        | none =>
          have e : ifLine T kind name true (a :: as) none =
              joinSp [kindWord kind, ascii "interface", name, ascii "up", ascii "true", ascii "ipv6", formatAddress T a] ++ [10] := by
            unfold ifLine
            simp only [joinSp, List.append_assoc, kind_word, List.cons_append, if_true, s1, List.nil_append]
            rw [sp_around " interface " "interface" (by decide +kernel), sp_around " ipv6 " "ipv6" (by decide +kernel)]
          rw [e]
          exact readReport_join (by
            simp only [List.forall_mem_cons]
            exact ⟨q1, q2, hn.2, q3, q4, q6, address_chars hT ha, by simp⟩) rfl
        | some b =>
          have hb := h4 b rfl
          have e : ifLine T kind name true (a :: as) (some b) =
              joinSp [kindWord kind, ascii "interface", name, ascii "up", ascii "true", ascii "ipv6", formatAddress T a,
                ascii "ipv4", T.v4 b] ++ [10] := by
            unfold ifLine
            simp only [joinSp, List.append_assoc, kind_word, List.cons_append, if_true, s1, List.nil_append, if_neg (hT.len4 b hb).1]
            rw [sp_around " interface " "interface" (by decide +kernel), sp_around " ipv6 " "ipv6" (by decide +kernel),
              sp_around " ipv4 " "ipv4" (by decide +kernel)]
          rw [e]
          exact readReport_join (by
            simp only [List.forall_mem_cons]
            exact ⟨q1, q2, hn.2, q3, q4, q6, address_chars hT ha, q7, p4 b hb, by simp⟩) rfl
    · rintro (h | rfl)
      · cases h
      · rfl
    · rintro a as _ rfl
      exact ⟨_, _, rfl, C79_address hT a (hl a (by simp))⟩
    · rintro (h | rfl)
      · cases h
      · rfl
    · rintro a _ rfl
      exact ⟨_, rfl, r4 a (h4 a rfl)⟩
    · unfold ifLine
      simp only [if_true, List.length_append, List.length_cons, List.length_nil]
      cases ll with
      | nil =>
        cases ipv4 with
        | none => simp only [if_true, List.length_nil]; omega
        | some b =>
          have x2 := (hT.len4 b (h4 b rfl))
          simp only [if_neg x2.1, List.length_nil]; omega
      | cons a as =>
        have x1 := address_length hT (hl a (by simp))
        cases ipv4 with
        | none => simp only [if_true, List.length_append, List.length_nil]; omega
        | some b =>
          have x2 := (hT.len4 b (h4 b rfl))
          simp only [if_neg x2.1, List.length_append, List.length_nil]; omega

/-- C79: the header, cut at newlines. -/
theorem C79_header (version : Bytes) (host : Option Bytes) (myid : Bytes) (hv : (10 : UInt8) ∉ version)
    (hh : ∀ h, host = some h → (10 : UInt8) ∉ h) (hi : myid.length = 8) :
    ∃ I, splitOn 10 (headerText version host myid) =
        [ascii "BABEL 1.0", ascii "version " ++ version, ascii "host " ++ host.getD (ascii "alamakota"), ascii "my-id " ++ I,
         ascii "ok", []] ∧ IdText I myid := by
  have hi0 : myid ≠ [] := by rintro rfl; simp at hi
  refine ⟨formatEui64 myid, ?_, C79_id _ hi0⟩
  unfold headerText
  have e1 : ascii "BABEL 1.0\nversion " = ascii "BABEL 1.0" ++ 10 :: ascii "version " := by decide +kernel
  have e2 : ascii "\nhost " = 10 :: ascii "host " := by decide +kernel
  have e3 : ascii "\nmy-id " = 10 :: ascii "my-id " := by decide +kernel
  have e4 : ascii "\nok\n" = 10 :: (ascii "ok" ++ 10 :: []) := by decide +kernel
  have m : ∀ {w : Bytes}, (10 : UInt8) ∉ w → ∀ c ∈ w, c ≠ 10 := fun h c hc he => h (he ▸ hc)
  have hh2 : (10 : UInt8) ∉ host.getD (ascii "alamakota") := by
    cases host with
    | none => decide +kernel
    | some h => exact hh h rfl
  rw [e1, e2, e3, e4]
  simp only [List.append_assoc, List.cons_append]
  rw [splitOn_append _ (m (by decide +kernel)), ← List.append_assoc,
    splitOn_append _ (m (by simp only [List.mem_append, not_or]; exact ⟨by decide +kernel, hv⟩)), ← List.append_assoc,
    splitOn_append _ (m (by simp only [List.mem_append, not_or]; exact ⟨by decide +kernel, hh2⟩)), ← List.append_assoc,
    splitOn_append _ (m (by
      simp only [List.mem_append, not_or]; exact ⟨by decide +kernel, fun h => (eui64_plain myid 10 h).2 rfl⟩)),
    splitOn_append _ (m (by decide +kernel))]
  rfl

/-! ### The stream -/

/-- C79: `write_timeout` sends a beginning of the text; it succeeds exactly if it sends all of it;
it does so if the client goes on taking bytes, and sends nothing if the client takes none at first. -/
theorem C79_write (env : Nat → WTry) (b : Bytes) :
    (writeTimeout b.length env b).1 <+: b ∧
    ((writeTimeout b.length env b).2 = true ↔ (writeTimeout b.length env b).1 = b) ∧
    ((∀ i, Progress (env i)) → writeTimeout b.length env b = (b, true)) ∧
    (b ≠ [] → ¬ Progress (env 0) → writeTimeout b.length env b = ([], false)) := by
  obtain ⟨h1, h2⟩ := writeTimeout_spec b.length env b (Nat.le_refl _)
  refine ⟨h1, h2, writeTimeout_progress _ env b (Nat.le_refl _), fun hb hp => ?_⟩
  have hl : 0 < b.length := List.length_pos_iff.2 hb
  have h3 : tryWrite (env 0) b.length = 0 := by
    have := mt (tryWrite_pos hl).1 hp
    omega
  cases h4 : b.length with
  | zero => omega
  | succ n =>
    unfold writeTimeout
    rw [if_neg hb]
    simp only
    rw [if_pos h3]

theorem conn_aux (ops : List ConnOp) : ∀ c : Conn, c.shut = true → ops.foldl connStep c = c := by
  induction ops with
  | nil => intro c _; rfl
  | cons o ops ih =>
    intro c hc
    rw [List.foldl_cons]
    have : connStep c o = c := by
      cases o with
      | quit => cases c; simp_all [connStep]
      | text size t env =>
        unfold connStep
        simp only [hc, if_true]
        cases c
        split <;> simp_all
    rw [this, ih c hc]

theorem conn_stream (ops : List ConnOp) : ∀ c : Conn, c.shut = false → ∃ done part rest,
    textsOf ops = done ++ rest ∧ (ops.foldl connStep c).sent = c.sent ++ (done.flatten ++ part) ∧
    (part = [] ∨ ∃ t rest', rest = t :: rest' ∧ part <+: t ∧ part ≠ t) ∧
    ((ops.foldl connStep c).shut = false → rest = [] ∧ part = []) := by
  induction ops with
  | nil => intro c _; exact ⟨[], [], [], rfl, by simp, Or.inl rfl, fun _ => ⟨rfl, rfl⟩⟩
  | cons o ops ih =>
    intro c hc
    rw [List.foldl_cons]
    cases o with
    | quit =>
      rw [conn_aux ops _ rfl]
      exact ⟨[], [], textsOf ops, rfl, by simp [connStep], Or.inl rfl, fun h => by simp [connStep] at h⟩
    | text size t env =>
      by_cases hs : t.length ≥ size
      · have e : connStep c (.text size t env) = { c with shut := true } := by
          unfold connStep; simp only; rw [if_pos hs]
        rw [e, conn_aux ops _ rfl]
        exact ⟨[], [], t :: textsOf ops, rfl, by simp, Or.inl rfl, fun h => by simp at h⟩
      · obtain ⟨h1, h2⟩ := writeTimeout_spec t.length env t (Nat.le_refl _)
        have e : connStep c (.text size t env) =
            { sent := c.sent ++ (writeTimeout t.length env t).1, shut := !(writeTimeout t.length env t).2 } := by
          unfold connStep; simp only; rw [if_neg hs, hc]; rfl
        cases hok : (writeTimeout t.length env t).2 with
        | true =>
          rw [h2.1 hok, hok] at e
          rw [e]
          obtain ⟨done, part, rest, a1, a2, a3, a4⟩ := ih { sent := c.sent ++ t, shut := !true } rfl
          exact ⟨t :: done, part, rest, by simp [textsOf, a1], by rw [a2]; simp, a3, a4⟩
        | false =>
          rw [hok] at e
          rw [e, conn_aux ops _ rfl]
          refine ⟨[], (writeTimeout t.length env t).1, t :: textsOf ops, rfl, by simp, Or.inr ⟨t, _, rfl, h1, fun he => ?_⟩,
            fun h => by simp at h⟩
          have := h2.2 he
          rw [hok] at this; cases this

/-- C79: whatever `write` does, at any time the client has been sent the first texts in full, one
after the other, then perhaps a beginning of the next one, and nothing else.  If the connection has not been
shut down it has been sent everything. -/
theorem C79_stream (ops : List ConnOp) : ∃ done part rest,
    textsOf ops = done ++ rest ∧ (ops.foldl connStep {}).sent = done.flatten ++ part ∧
    (part = [] ∨ ∃ t rest', rest = t :: rest' ∧ part <+: t ∧ part ≠ t) ∧
    ((ops.foldl connStep {}).shut = false → rest = [] ∧ part = []) := by
  obtain ⟨done, part, rest, a1, a2, a3, a4⟩ := conn_stream ops {} rfl
  exact ⟨done, part, rest, a1, by simpa using a2, a3, a4⟩

/-- C79: a client that takes what it is sent, and is not sent texts that are too long, gets
everything and keeps its connection until it asks for its end. -/
theorem C79_stream_all (ops : List ConnOp)
    (h : ∀ o ∈ ops, ∃ size t env, o = .text size t env ∧ t.length < size ∧ ∀ i, Progress (env i)) :
    ops.foldl connStep {} = { sent := (textsOf ops).flatten, shut := false } := by
  suffices ∀ c : Conn, c.shut = false → ops.foldl connStep c = { sent := c.sent ++ (textsOf ops).flatten, shut := false } by
    simpa using this {} rfl
  induction ops with
  | nil => intro c hc; cases c; simp_all [textsOf]
  | cons o ops ih =>
    intro c hc
    obtain ⟨size, t, env, rfl, hl, hp⟩ := h o (by simp)
    have e : connStep c (.text size t env) = { sent := c.sent ++ t, shut := false } := by
      unfold connStep
      simp only
      rw [if_neg (by omega), hc, writeTimeout_progress _ env t (Nat.le_refl _) hp]
      rfl
    rw [List.foldl_cons, e, ih (fun o ho => h o (by simp [ho])) _ rfl]
    simp [textsOf]

/-! ### Names with spaces -/

/-- C79: the configuration may name an interface with spaces in its name, between quotes; it never
exists, but it is announced, and the line about it then reads like the line about another interface, with
properties it does not have. -/
theorem C79_name_false :
    ∃ (name other : Bytes) (v : Bytes), ∀ T,
      (readReport (ifLine T .add name false [] none)).map (fun r => (r.id, r.fields.take 1)) = some (other, [(ascii "up", v)]) ∧
      other ≠ name ∧ v ≠ ascii "false" :=
  ⟨ascii "eth0 up true", ascii "eth0", ascii "true", fun T => by
    have e : ifLine T .add (ascii "eth0 up true") false [] none =
        ifLine ⟨fun _ => [], fun _ => []⟩ .add (ascii "eth0 up true") false [] none := rfl
    rw [e]
    decide +kernel⟩

/-! ### Examples -/

/-- A simple `inet_ntop` and `inet_pton`: three decimal digits for each byte of an IPv4 address, two
hexadecimal digits for each byte of an IPv6 address. -/
def demoNtop : Ntop where
  v4 a := a.flatMap fun b => [UInt8.ofNat (48 + b.toNat / 100), UInt8.ofNat (48 + b.toNat / 10 % 10), UInt8.ofNat (48 + b.toNat % 10)]
  v6 a := a.flatMap hex2

/-- Three digits are a byte. -/
def demoRead3 : Bytes → Bytes
  | a :: b :: c :: t => UInt8.ofNat ((a.toNat - 48) * 100 + (b.toNat - 48) * 10 + (c.toNat - 48)) :: demoRead3 t
  | _ => []

/-- The inverse of `demoNtop`. -/
def demoLibc : Libc where
  pton4 w := if w.length = 12 then some (demoRead3 w) else none
  pton6 w := if w.length = 32 then fromhex w else none
  eui64 _ := none
  ifindex _ := 0

theorem demo_read3 (a : Bytes) : demoRead3 (demoNtop.v4 a) = a := by
  induction a with
  | nil => rfl
  | cons b t ih =>
    have hb : b.toNat < 256 := b.toNat_lt
    show UInt8.ofNat _ :: demoRead3 (demoNtop.v4 t) = b :: t
    rw [ih]
    congr 1
    have e1 : (UInt8.ofNat (48 + b.toNat / 100)).toNat = 48 + b.toNat / 100 := by simp; omega
    have e2 : (UInt8.ofNat (48 + b.toNat / 10 % 10)).toNat = 48 + b.toNat / 10 % 10 := by simp; omega
    have e3 : (UInt8.ofNat (48 + b.toNat % 10)).toNat = 48 + b.toNat % 10 := by simp; omega
    rw [e1, e2, e3]
    have : (48 + b.toNat / 100 - 48) * 100 + (48 + b.toNat / 10 % 10 - 48) * 10 + (48 + b.toNat % 10 - 48) = b.toNat := by omega
    rw [this, UInt8.ofNat_toNat]

theorem demo_spells (a : Bytes) : Spells (demoNtop.v6 a) a := by
  induction a with
  | nil => exact .nil
  | cons b t ih =>
    have h : b.toNat < 256 := b.toNat_lt
    have := Spells.cons (hexChar_isHex (d := b.toNat / 16) (by omega)) (hexChar_isHex (d := b.toNat % 16) (by omega)) ih
    rwa [show 16 * (b.toNat / 16) + b.toNat % 16 = b.toNat by omega, UInt8.ofNat_toNat] at this

theorem demo_len4 (a : Bytes) : (demoNtop.v4 a).length = 3 * a.length := by
  induction a with
  | nil => rfl
  | cons b t ih =>
    have : demoNtop.v4 (b :: t) = [_, _, _] ++ demoNtop.v4 t := rfl
    rw [this, List.length_append, ih]; simp; omega

theorem demo_len6 (a : Bytes) : (demoNtop.v6 a).length = 2 * a.length := by
  induction a with
  | nil => rfl
  | cons b t ih =>
    have : demoNtop.v6 (b :: t) = [_, _] ++ demoNtop.v6 t := rfl
    rw [this, List.length_append, ih]; simp; omega

theorem demo_ok : NtopOk demoLibc demoNtop where
  read4 a h := by
    show (if _ then _ else _) = _
    rw [if_pos (by rw [demo_len4, h]), demo_read3]
  len4 a h := by
    have := demo_len4 a
    refine ⟨fun he => ?_, by omega⟩
    rw [he] at this; simp at this; omega
  chars4 a _ c hc := by
    obtain ⟨b, _, hb⟩ := List.mem_flatMap.1 hc
    have h : b.toNat < 256 := b.toNat_lt
    left
    simp only [List.mem_cons, List.not_mem_nil, or_false] at hb
    unfold Digit
    rcases hb with rfl | rfl | rfl <;> simp <;> omega
  read6 a h := by
    constructor
    · show (if _ then _ else _) = _
      rw [if_neg (by rw [demo_len6]; omega)]
    · show (if _ then _ else _) = _
      rw [if_pos (by rw [demo_len6, h]), (C06_fromhex_iff _ _).2 (demo_spells a)]
  len6 a h := by rw [demo_len6]; omega
  chars6 a _ c hc := by
    obtain ⟨b, _, hb⟩ := List.mem_flatMap.1 hc
    have h : b.toNat < 256 := b.toNat_lt
    left
    simp only [hex2, List.mem_cons, List.not_mem_nil, or_false] at hb
    rcases hb with rfl | rfl
    · exact ⟨_, hexChar_isHex (by omega)⟩
    · exact ⟨_, hexChar_isHex (by omega)⟩

/-- 192.0.2.0/24. -/
def demoP4 : Bytes := v4tov6 [192, 0, 2, 0]

/-- A selected route to 192.0.2.0/24. -/
def demoRep : RouteRep :=
  { ptr := 0xbeef01, pfx := demoP4, plen := 120, src := zeroes16, srcPlen := 0, installed := true,
    rid := [1, 2, 3, 4, 5, 6, 7, 8], metric := 352, refmetric := 96,
    via := [0xfe, 0x80, 0, 0, 0, 0, 0, 0, 0, 0, 0, 0, 0, 0, 0, 1], ifname := ascii "eth0" }

theorem demoRep_net : NetOk (demoRep.pfx, demoRep.plen) ∧ NetOk (demoRep.src, demoRep.srcPlen) :=
  have h1 := normalize_ok (a := demoP4) (n := 120) (by decide +kernel) (by decide)
  have h2 := normalize_ok (a := zeroes16) (n := 0) (by decide +kernel) (by decide)
  have e1 : normalizePrefix demoP4 120 = demoP4 := by decide +kernel
  have e2 : normalizePrefix zeroes16 0 = zeroes16 := by decide +kernel
  ⟨by rw [e1] at h1; exact h1, by rw [e2] at h2; exact h2⟩

example := C79_route demo_ok .add demoRep demoRep_net.1 demoRep_net.2 rfl rfl ⟨by decide +kernel, by decide +kernel⟩
  (by decide) (by decide) (by decide)

example : routeLine demoNtop .add demoRep =
    ascii ("add route beef01 prefix 192000002000/24 from 00000000000000000000000000000000/0 installed yes " ++
      "id 01:02:03:04:05:06:07:08 metric 352 refmetric 96 via fe800000000000000000000000000001 if eth0\n") := by
  decide +kernel

example := C79_xroute demo_ok .flush demoP4 120 zeroes16 0 0 demoRep_net.1 demoRep_net.2 (by decide)

example : nbrLine demoNtop .change ⟨0x55aa, demoRep.via, ascii "eth0", 0xff00, 0, 96, 256, some (12345, 7), 103⟩ =
    ascii ("change neighbour 55aa address fe800000000000000000000000000001 if eth0 reach ff00 ureach 0000 " ++
      "rxcost 96 txcost 256 rtt 12.345 rttcost 7 cost 103\n") := by
  decide +kernel

example := C79_neighbour demo_ok .change ⟨0x55aa, demoRep.via, ascii "eth0", 0xff00, 0, 96, 256, some (12345, 7), 103⟩ rfl
  ⟨by decide +kernel, by decide +kernel⟩ (by decide) (by decide) (by decide) (by decide) (by decide) (by decide)
  (by intro t c h; injection h with h; injection h with h1 h2; subst h1; subst h2; decide)

example := C79_interface demo_ok .add (ascii "eth0") true [demoRep.via] (some [192, 0, 2, 1]) ⟨by decide +kernel, by decide +kernel⟩
  (by intro a h; simp at h; subst h; rfl) (by intro a h; injection h with h; subst h; rfl)

example := C79_header (ascii "babeld-1.13") (some (ascii "router")) [1, 2, 3, 4, 5, 6, 7, 8] (by decide +kernel)
  (by intro h e; injection e with e; subst e; decide +kernel) rfl

/-- A client that takes two bytes at a time, and then, in the second text, stops. -/
example : [ConnOp.text 512 (ascii "ok\n") (fun _ => ⟨.sent 2, false, .fail⟩),
      .text 512 (ascii "flush\n") (fun i => if i = 1 then ⟨.again, false, .fail⟩ else ⟨.again, true, .sent 2⟩),
      .text 512 (ascii "ok\n") (fun _ => ⟨.sent 2, false, .fail⟩)].foldl connStep {} = { sent := ascii "ok\nfl", shut := true } := by
  decide +kernel

end Babel
