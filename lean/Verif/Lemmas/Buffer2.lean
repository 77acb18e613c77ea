import Verif.Lemmas.Buffer
/-
Flushing a send buffer.
-/
set_option linter.unusedSimpArgs false
set_option linter.unusedVariables false
namespace Babel
open Spec

/-- The room for a timestamp in a hello. -/
def stampPad (tf : Bool) : Bytes := if tf then [1, 4] ++ be32 0 else []

/-- The space reserved for authentication. -/
def reserve (a : Bool) : Nat := if a then 62 else 0

/-- The buffer holds the TLVs `ts`; `a` says whether the interface has a key, `tf` whether it sends
timestamps. -/
structure Good (a tf : Bool) (b : Buf) (ts : List Tlv) : Prop where
  lo : 256 ≤ b.size
  hi : b.size < 65536
  bytes : b.bytes = encAll ts
  ok : ∀ t ∈ ts, t.Ok
  room : b.bytes.length + reserve a ≤ b.size
  hello : (b.hello = none ∧ ∀ x, Tlv.tlv 4 x ∉ ts) ∨
    ∃ ts1 f ts2, b.hello = some (encAll ts1).length ∧ ts = ts1 ++ .tlv 4 (f ++ stampPad tf) :: ts2 ∧
      f.length = 6 ∧ (∀ x, Tlv.tlv 4 x ∉ ts1) ∧ (∀ x, Tlv.tlv 4 x ∉ ts2)
  nopc : ∀ x, Tlv.tlv 17 x ∉ ts
  id : ∀ e x, b.id = some x → (many e {} ts).1.routerId = some x
  nh : ∀ e x, b.nh = some x → (many e {} ts).1.v4Nh = some (v4tov6 x)
  pfx : ∀ e x, b.prefix_ = some x →
    (many e {} ts).1.v6Prefix = some x ∧ x.length = 16 ∧ v4mapped x = false
  v6 : ∀ e, (many e {} ts).1.v6Nh = none

theorem Good.reset {a tf b ts} (g : Good a tf b ts) : Good a tf b.reset [] where
  lo := g.lo
  hi := g.hi
  bytes := rfl
  ok := by simp
  room := by
    have := g.lo
    show 0 + reserve a ≤ b.size
    unfold reserve; split <;> omega
  hello := .inl ⟨rfl, by simp⟩
  nopc := by simp
  id := by intro e x h; cases h
  nh := by intro e x h; cases h
  pfx := by intro e x h; cases h
  v6 := fun e => rfl

/-- The TLVs as they are sent at time `now`. -/
def stampTlv (tf : Bool) (now : Timeval) : Tlv → Tlv
  | .tlv 4 b => if tf then .tlv 4 (b.take 6 ++ ([3, 4] ++ be32 (timeUs now))) else .tlv 4 b
  | t => t

theorem stampTlv_ne {tf now ty b} (h : ty ≠ 4) : stampTlv tf now (.tlv ty b) = .tlv ty b := by
  unfold stampTlv
  split
  · next h' => cases h'; exact absurd rfl h
  · rfl

theorem stampTlv_off {now t} : stampTlv false now t = t := by
  unfold stampTlv; split <;> rfl

theorem stamp_none {tf now} {ts : List Tlv} (h : ∀ x, Tlv.tlv 4 x ∉ ts) : ts.map (stampTlv tf now) = ts := by
  induction ts with
  | nil => rfl
  | cons t ts ih =>
    rw [List.map_cons, ih (fun x hx => h x (by simp [hx]))]
    cases t with
    | pad1 => rfl
    | tlv ty b => rw [stampTlv_ne (by rintro rfl; exact h b (by simp))]

/-- The counter TLV of the next packet, and the counters after it. -/
def nextCtr (o : Orc) (auth : Bool) (pc : Nat) (index : Bytes) (draws : Nat) :
    List Tlv × Nat × Bytes × Nat :=
  if auth then
    if pc = 0 then
      match o.rand draws with
      | none => ([], pc, index, draws + 1)
      | some i => ([.tlv 17 (be32 pc ++ i)], u32 (pc + 1), i, draws + 1)
    else ([.tlv 17 (be32 pc ++ index)], u32 (pc + 1), index, draws)
  else ([], pc, index, draws)

theorem sendPc_ok (o : Orc) (t : Tx) (hr : t.buf.bytes.length + 62 ≤ t.buf.size) (hi : t.index.length = 8)
    (ho : ∀ n i, o.rand n = some i → i.length = 8) :
    let r := nextCtr o true t.pc t.index t.draws
    sendPc o t = some { t with
      buf := { t.buf with bytes := t.buf.bytes ++ encAll r.1 }, pc := r.2.1, index := r.2.2.1, draws := r.2.2.2 } ∧
    (encAll r.1).length ≤ 14 ∧ r.2.2.1.length = 8 ∧ (∀ x ∈ r.1, x.Ok ∧ ∃ b, x = .tlv 17 b) := by
  have hs : ¬ ((t.buf.size : Int) - t.buf.bytes.length < hmacSpace) := by unfold hmacSpace; omega
  have hl : ∀ n (i : Bytes), i.length = 8 → ([17, 12] ++ htonl n ++ i : Bytes) = encAll [.tlv 17 (be32 n ++ i)] := by
    intro n i h
    rw [encAll_single, htonl_eq]
    simp [Tlv.enc, be32, be16, h]
  have hb : ∀ n (i : Bytes), i.length = 8 → (encAll [.tlv 17 (be32 n ++ i)]).length = 14 := by
    intro n i h
    rw [encAll_single]
    simp [Tlv.enc, be32, be16, h]
  have hok : ∀ n (i : Bytes), i.length = 8 → ∀ x ∈ [Tlv.tlv 17 (be32 n ++ i)], x.Ok ∧ ∃ b, x = .tlv 17 b := by
    intro n i h x hx
    rw [List.mem_singleton] at hx
    subst hx
    exact ⟨⟨by decide, by simp [be32, be16, h]⟩, _, rfl⟩
  unfold sendPc nextCtr
  rw [if_neg hs]
  simp only [if_true]
  by_cases h0 : t.pc = 0
  · rw [if_pos h0, if_pos h0]
    cases hr' : o.rand t.draws with
    | none =>
      simp only []
      refine ⟨?_, by simp [encAll], hi, by simp⟩
      simp [encAll]
    | some i =>
      have h8 := ho _ _ hr'
      simp only []
      refine ⟨?_, ?_, h8, hok _ _ h8⟩
      · rw [hl _ _ h8]
        unfold Buf.put
        rw [if_pos (by rw [hb _ _ h8]; show t.buf.bytes.length + 14 ≤ t.buf.size; omega)]
        rfl
      · rw [hb _ _ h8]; decide
  · rw [if_neg h0, if_neg h0]
    simp only []
    refine ⟨?_, ?_, hi, hok _ _ hi⟩
    · rw [hl _ _ hi]
      unfold Buf.put
      rw [if_pos (by rw [hb _ _ hi]; omega)]
      rfl
    · rw [hb _ _ hi]; decide

theorem rd_append_right (a b : Bytes) (i : Nat) : rd (a ++ b) (a.length + i) = rd b i := by
  unfold rd
  rw [List.getElem?_append_right (by omega)]
  congr 2
  omega

theorem stamp_append (a x y b : Bytes) (time : Nat) (hx : x.length = 6) :
    stamp (a ++ (x ++ b)) a.length time = a ++ (([3, 4] ++ be32 time) ++ b) := by
  unfold stamp
  rw [htonl_eq, List.take_left, ← hx, ← List.length_append, ← List.append_assoc a x b, List.drop_left]
  simp

/-- Filling in the time of emission. -/
theorem fillRtt_ok {a tf : Bool} {b : Buf} {ts : List Tlv} (g : Good a tf b ts) (c : SIf) (now : Timeval)
    (ht : c.timestamps = tf) (ex : List Tlv) (hex : ∀ x ∈ ex, ∃ b, x = Tlv.tlv 17 b) :
    fillRtt c now { b with bytes := b.bytes ++ encAll ex } =
      some { b with bytes := encAll (ts.map (stampTlv tf now) ++ ex) } := by
  unfold fillRtt
  rw [ht]
  rcases g.hello with ⟨h1, h2⟩ | ⟨ts1, f, ts2, h1, h2, h3, h4, h5⟩
  · rw [stamp_none h2, encAll_append, ← g.bytes]
    simp only [h1]
  · cases tf with
    | false =>
      have : ts.map (stampTlv false now) = ts := by
        conv => rhs; rw [← List.map_id ts]
        exact List.map_congr_left fun x _ => stampTlv_off
      rw [this, encAll_append, ← g.bytes]
    | true =>
      simp only [h1]
      rw [g.bytes, h2]
      have hb : encAll (ts1 ++ Tlv.tlv 4 (f ++ stampPad true) :: ts2) ++ encAll ex =
          (encAll ts1 ++ ([4, 12] ++ f)) ++ (([1, 4] ++ be32 0) ++ (encAll ts2 ++ encAll ex)) := by
        rw [encAll_append, encAll_cons]
        simp [Tlv.enc, stampPad, h3, be32, be16]
      have hl : (encAll ts1 ++ ([4, 12] ++ f)).length = (encAll ts1).length + 8 := by simp [h3]
      rw [hb]
      rw [← hl, show (encAll ts1).length + 9 = (encAll ts1 ++ ([4, 12] ++ f)).length + 1 by rw [hl],
        show (encAll ts1).length + 14 = (encAll ts1 ++ ([4, 12] ++ f)).length + 6 by rw [hl]]
      have r0 : ∀ l : Bytes, rd ((encAll ts1 ++ ([4, 12] ++ f)) ++ l) (encAll ts1 ++ ([4, 12] ++ f)).length = rd l 0 :=
        fun l => rd_append_right _ l 0
      rw [r0, rd_append_right, stamp_append _ _ [] _ _ (by simp [be32, be16])]
      simp only [List.cons_append, List.nil_append, rd_cons_zero, rd_cons_one, Option.bind_eq_bind, Option.bind_some]
      rw [if_pos (by decide), if_pos (by simp [be32, be16]; omega)]
      rw [List.map_append, List.map_cons, stamp_none h4, stamp_none h5]
      have hs : stampTlv true now (.tlv 4 (f ++ stampPad true)) = .tlv 4 (f ++ ([3, 4] ++ be32 (timeUs now))) := by
        show Tlv.tlv 4 ((f ++ stampPad true).take 6 ++ _) = _
        rw [← h3, List.take_left]
      rw [hs]
      simp only [encAll_append, encAll_cons, Tlv.enc, pure, Option.some.injEq]
      simp [h3, be32, be16]

/-- What the circumstances of an operation must be. -/
structure Circ (a tf : Bool) (o : Orc) (c : SIf) : Prop where
  key : c.key.isSome = a
  ts : c.timestamps = tf
  signs : Signs c
  rand : ∀ n i, o.rand n = some i → i.length = 8
  ip : ∀ i, c.ipv4 = some i → i.length = 4

theorem padding_length (fuel n : Nat) (h : n ≤ fuel) : (padding fuel n).length = n := by
  induction fuel using Nat.strongRecOn generalizing n with
  | _ fuel ih =>
    cases fuel with
    | zero => have : n = 0 := by omega
              subst this; rfl
    | succ fuel =>
      unfold padding
      by_cases h0 : n = 0
      · rw [if_pos h0, h0]; rfl
      · rw [if_neg h0]
        by_cases h2 : n ≥ 2
        · rw [if_pos h2]
          simp only []
          by_cases h3 : n - 2 > 255
          · rw [if_pos h3]
            rw [List.length_append, List.length_append, ih fuel (by omega) _ (by omega)]
            rw [List.length_replicate]
            simp only [List.length_cons, List.length_nil]
            omega
          · rw [if_neg h3]
            rw [List.length_append, List.length_append, ih fuel (by omega) _ (by omega)]
            rw [List.length_replicate]
            simp only [List.length_cons, List.length_nil]
            omega
        · rw [if_neg h2]; simp; omega

theorem trailer_ok {a tf : Bool} {o : Orc} {c : SIf} (hc : Circ a tf o c) (b : Buf)
    (hr : c.auth.isSome = true → b.bytes.length + 34 ≤ b.size) (hl : b.bytes.length ≤ b.size) :
    ∃ tr, trailer c b = some (some tr) ∧ b.bytes.length + tr.length ≤ b.size ∧
      match c.key with
      | none => tr = []
      | some k =>
        if k.none then tr = []
        else ∃ src m, c.ll.head? = some src ∧ k.mac src b.dst (header b.bytes.length) b.bytes = some m ∧
          tr = (Tlv.tlv 16 m).enc := by
  unfold trailer
  cases h : c.auth with
  | none =>
    refine ⟨[], rfl, by simpa using hl, ?_⟩
    unfold SIf.auth at h
    split
    · rfl
    · next k hk =>
      rw [hk] at h
      simp only at h
      split
      · rfl
      · next hn => rw [if_neg hn] at h; cases h
  | some k =>
    have hk : c.key = some k ∧ k.none = false := by
      unfold SIf.auth at h
      split at h
      · next k' h' =>
        by_cases hn : k'.none = true
        · rw [if_pos hn] at h; cases h
        · rw [if_neg hn] at h
          cases h
          exact ⟨h', by simpa using hn⟩
      · cases h
    obtain ⟨h1, h2⟩ := hc.signs k hk.1 hk.2
    have h3 := hr (by rw [h]; rfl)
    unfold addHmac
    cases hll : c.ll with
    | nil => exact absurd hll h1
    | cons src ll =>
      simp only []
      rw [if_neg (by omega)]
      obtain ⟨m, hm, hm'⟩ := h2 src b.dst (header b.bytes.length) b.bytes
      rw [hm]
      simp only []
      rw [if_pos (by omega)]
      refine ⟨_, rfl, by simp; omega, ?_⟩
      rw [hk.1]
      simp only
      rw [if_neg (by rw [hk.2]; decide)]
      exact ⟨src, m, rfl, hm, rfl⟩

theorem padding_tlvs (fuel n : Nat) : ∃ pad, padding fuel n = encAll pad ∧
    ∀ t ∈ pad, t.Ok ∧ (t = .pad1 ∨ ∃ n, t = .tlv 1 (List.replicate n 0)) := by
  induction fuel generalizing n with
  | zero => exact ⟨[], rfl, by simp⟩
  | succ fuel ih =>
    unfold padding
    split
    · exact ⟨[], rfl, by simp⟩
    · split
      · obtain ⟨pad, h1, h2⟩ := ih (n - 2 - if n - 2 > 255 then 255 else n - 2)
        generalize hl : (if n - 2 > 255 then 255 else n - 2) = l at *
        have h255 : l ≤ 255 := by rw [← hl]; split <;> omega
        refine ⟨.tlv 1 (List.replicate l 0) :: pad, ?_, ?_⟩
        · simp only []
          rw [h1, encAll_cons]
          simp [Tlv.enc]
        · intro t ht
          rcases List.mem_cons.1 ht with rfl | ht
          · exact ⟨⟨by decide, by rw [List.length_replicate]; exact h255⟩, .inr ⟨l, rfl⟩⟩
          · exact h2 t ht
      · refine ⟨[.pad1], rfl, ?_⟩
        intro t ht
        rw [List.mem_singleton] at ht
        exact ⟨by rw [ht]; trivial, .inl ht⟩

/-- The outcome of flushing: nothing if the buffer is empty, otherwise one packet. -/
inductive Flush1 (o : Orc) (c : SIf) (now : Timeval) (tf : Bool) (ts : List Tlv) (t : Tx) : Tx → Prop
  | empty : ts = [] → Flush1 o c now tf ts t { t with buf := t.buf.reset }
  | sent (tr : Bytes) (ex : List Tlv) (pc : Nat) (ix : Bytes) (dr : Nat) : ts ≠ [] →
      nextCtr o c.auth.isSome t.pc t.index t.draws = (ex, pc, ix, dr) →
      (encAll (ts.map (stampTlv tf now) ++ ex)).length + tr.length ≤ t.buf.size →
      ix.length = 8 → (∀ x ∈ ex, x.Ok ∧ ∃ b, x = .tlv 17 b) →
      TrailerOk c t.buf.dst t.buf.size (encAll (ts.map (stampTlv tf now) ++ ex)) tr →
      Flush1 o c now tf ts t
        { t with buf := t.buf.reset, pc := pc, index := ix, draws := dr,
                 out := t.out ++ [packet (encAll (ts.map (stampTlv tf now) ++ ex)) tr] }

theorem encAll_eq_nil {ts : List Tlv} : encAll ts = [] ↔ ts = [] := by
  cases ts with
  | nil => simp [encAll]
  | cons t ts => cases t <;> simp [encAll, Tlv.enc]

theorem stampTlv_len {a tf : Bool} {b : Buf} {ts : List Tlv} (g : Good a tf b ts) (now : Timeval) :
    (encAll (ts.map (stampTlv tf now))).length = (encAll ts).length := by
  rcases g.hello with ⟨h1, h2⟩ | ⟨ts1, f, ts2, h1, h2, h3, h4, h5⟩
  · rw [stamp_none h2]
  · cases tf with
    | false =>
      have : ts.map (stampTlv false now) = ts := by
        conv => rhs; rw [← List.map_id ts]
        exact List.map_congr_left fun x _ => stampTlv_off
      rw [this]
    | true =>
      rw [h2, List.map_append, List.map_cons, stamp_none h4, stamp_none h5]
      have hs : stampTlv true now (.tlv 4 (f ++ stampPad true)) = .tlv 4 (f ++ ([3, 4] ++ be32 (timeUs now))) := by
        show Tlv.tlv 4 ((f ++ stampPad true).take 6 ++ _) = _
        rw [← h3, List.take_left]
      rw [hs]
      simp only [encAll_append, encAll_cons, Tlv.enc]
      simp [h3, be32, be16, stampPad]

theorem auth_key {c : SIf} (h : c.auth.isSome = true) : c.key.isSome = true := by
  unfold SIf.auth at h
  split at h
  · next h' => rw [h']; rfl
  · cases h

theorem flush_ok {a tf : Bool} {o : Orc} {c : SIf} (hc : Circ a tf o c) (now : Timeval) {t : Tx} {ts : List Tlv}
    (g : Good a tf t.buf ts) (hi : t.index.length = 8) :
    ∃ t', flushbuf o c now t = some t' ∧ Flush1 o c now tf ts t t' := by
  have hroom := g.room
  unfold flushbuf
  rw [if_neg (by omega)]
  by_cases h0 : ts = []
  · have : t.buf.bytes = [] := by rw [g.bytes, h0]; rfl
    rw [if_neg (by rw [this]; simp)]
    exact ⟨_, rfl, .empty h0⟩
  · have hne : t.buf.bytes ≠ [] := by rw [g.bytes]; exact mt encAll_eq_nil.1 h0
    rw [if_pos (List.length_pos_iff.2 hne)]
    have hpc : ∃ ex pc ix dr, nextCtr o c.auth.isSome t.pc t.index t.draws = (ex, pc, ix, dr) ∧
        addPc o c t = some { t with
          buf := { t.buf with bytes := t.buf.bytes ++ encAll ex }, pc := pc, index := ix, draws := dr } ∧
        (encAll ex).length + (if c.auth.isSome = true then 34 else 0) ≤ reserve a ∧ ix.length = 8 ∧
        (∀ x ∈ ex, x.Ok ∧ ∃ b, x = .tlv 17 b) := by
      unfold addPc
      by_cases ha : c.auth.isSome = true
      · have hk := auth_key ha
        rw [hc.key] at hk
        subst hk
        have hr : t.buf.bytes.length + 62 ≤ t.buf.size := hroom
        obtain ⟨h1, h2, h3, h4⟩ := sendPc_ok o t hr hi hc.rand
        rw [if_pos ha, ha, if_pos rfl]
        generalize nextCtr o true t.pc t.index t.draws = r at *
        refine ⟨r.1, r.2.1, r.2.2.1, r.2.2.2, rfl, h1, ?_, h3, h4⟩
        unfold reserve
        rw [if_pos rfl]
        omega
      · rw [if_neg ha, if_neg ha]
        have : c.auth.isSome = false := by simpa using ha
        rw [this]
        refine ⟨[], t.pc, t.index, t.draws, rfl, by simp [encAll], by simp [encAll], hi, by simp⟩
    obtain ⟨ex, pc, ix, dr, hn, h1, h2, h3, h4⟩ := hpc
    rw [h1]
    simp only [Option.bind_eq_bind, Option.bind_some]
    rw [fillRtt_ok g c now hc.ts ex (fun x hx => (h4 x hx).2)]
    simp only [Option.bind_some]
    have hl : (encAll (ts.map (stampTlv tf now) ++ ex)).length = t.buf.bytes.length + (encAll ex).length := by
      rw [encAll_append, List.length_append, stampTlv_len g, g.bytes]
    obtain ⟨tr, htr, hle, hmac⟩ := trailer_ok hc { t.buf with bytes := encAll (ts.map (stampTlv tf now) ++ ex) }
      (by intro ha; rw [if_pos ha] at h2; show _ ≤ t.buf.size; simp only [hl]; omega)
      (by show _ ≤ t.buf.size; simp only [hl]; omega)
    rw [htr]
    simp only [Option.bind_some]
    have hp : (if c.probe = true then padding t.buf.size (t.buf.size -
        ((encAll (ts.map (stampTlv tf now) ++ ex)).length + tr.length)) else []).length +
        ((encAll (ts.map (stampTlv tf now) ++ ex)).length + tr.length) ≤ t.buf.size := by
      by_cases hp : c.probe = true
      · rw [if_pos hp, padding_length _ _ (by omega)]
        have : (encAll (ts.map (stampTlv tf now) ++ ex)).length + tr.length ≤ t.buf.size := hle
        omega
      · rw [if_neg hp]
        have : (encAll (ts.map (stampTlv tf now) ++ ex)).length + tr.length ≤ t.buf.size := hle
        simpa using this
    have hfin := Flush1.sent (o := o) (c := c) (now := now) (tf := tf) (t := t) (ts := ts)
      (tr ++ (if c.probe = true then padding t.buf.size (t.buf.size -
        ((encAll (ts.map (stampTlv tf now) ++ ex)).length + tr.length)) else [])) ex pc ix dr h0 hn
    refine ⟨_, rfl, ?_⟩
    rw [← header_packet] at hfin
    simp only [← List.append_assoc] at hfin
    refine hfin ?_ h3 h4 ?_
    · rw [List.length_append]
      omega
    · have hle : (encAll (ts.map (stampTlv tf now) ++ ex)).length + tr.length ≤ t.buf.size := hle
      have hmac' := hmac
      simp only [] at hmac'
      have hh : (packet (encAll (ts.map (stampTlv tf now) ++ ex)) []).take 4 = header (encAll (ts.map (stampTlv tf now) ++ ex)).length := by
        rw [← header_packet, List.append_nil, List.take_append_of_le_length (by simp [header, htons])]
        rfl
      by_cases hp : c.probe = true
      · obtain ⟨pad, hp1, hp2⟩ := padding_tlvs t.buf.size (t.buf.size - ((encAll (ts.map (stampTlv tf now) ++ ex)).length + tr.length))
        refine ⟨tr, pad, by rw [if_pos hp, hp1], hp2, (fun h => by rw [hp] at h; cases h), fun _ => ?_, ?_⟩
        · rw [if_pos hp, List.length_append, padding_length _ _ (by omega)]
          omega
        · rw [hh]; exact hmac'
      · refine ⟨tr, [], by rw [if_neg hp]; rfl, by simp, fun _ => rfl, fun h => absurd h hp, ?_⟩
        rw [hh]; exact hmac'

end Babel
