import Verif.Lemmas.Buffer4
/-
Hellos and updates.
-/
set_option linter.unusedSimpArgs false
set_option linter.unusedVariables false
namespace Babel
open Spec

/-- The buffer has room for `n` more bytes. -/
def Room (a : Bool) (b : Buf) (n : Nat) : Prop := b.bytes.length + n + reserve a ≤ b.size

/-- TLVs have been added, nothing has been flushed. -/
structure Grow (t t' : Tx) (ts new : List Tlv) (items : PEnv → List Item) : Prop where
  size : t'.buf.size = t.buf.size
  out : t'.out = t.out
  pc : t'.pc = t.pc
  index : t'.index = t.index
  draws : t'.draws = t.draws
  items : ∀ e, its e (many e {} ts).1 new = items e

theorem Grow.refl (t : Tx) (ts : List Tlv) : Grow t t ts [] (fun _ => []) := ⟨rfl, rfl, rfl, rfl, rfl, fun _ => rfl⟩

theorem Grow.trans {t t' t'' ts new new' i i'} (h : Grow t t' ts new i) (h' : Grow t' t'' (ts ++ new) new' i') :
    Grow t t'' ts (new ++ new') (fun e => i e ++ i' e) where
  size := h'.size.trans h.size
  out := h'.out.trans h.out
  pc := h'.pc.trans h.pc
  index := h'.index.trans h.index
  draws := h'.draws.trans h.draws
  items := by
    intro e
    rw [its_append, h.items e]
    have := h'.items e
    rw [many_append] at this
    rw [this]

theorem Grow.did {a tf o c now t t1 t' ts base new i} (h : Grow t1 t' base new i) (hr : Ready o c now tf t ts t1 base)
    (g : Good a tf t.buf ts) (hi : t.index.length = 8) (g' : Good a tf t'.buf (base ++ new)) :
    Did a tf o c now t t' ts (base ++ new) i := by
  obtain ⟨g1, i1, s1⟩ := hr.good g hi
  exact ⟨g', by rw [h.index]; exact i1, h.size.trans s1, t1, base, new, hr, rfl, h.out, h.pc, h.index, h.draws, h.items⟩

theorem many_snoc (e : PEnv) (ts : List Tlv) (ty : UInt8) (body : Bytes) :
    (many e {} (ts ++ [.tlv ty body])).1 = (one e (many e {} ts).1 ty body).1 := by
  rw [many_append]; simp [many]

theorem its_single (e : PEnv) (s : PState) (ty : UInt8) (body : Bytes) :
    its e s [.tlv ty body] = (one e s ty body).2.map untimed := by
  simp [its, many]

section
variable {a tf : Bool} {o : Orc} {c : SIf} (hc : Circ a tf o c) (now : Timeval) {t : Tx} {ts : List Tlv}
include hc

theorem nh_ok (ip : Bytes) (hip : ip.length = 4) (g : Good a tf t.buf ts) (n : Nat) (hr : Room a t.buf (8 + n)) :
    ∃ t' new, bufferNh o c now ip t = some t' ∧ Good a tf t'.buf (ts ++ new) ∧ Grow t t' ts new (fun _ => []) ∧
      Room a t'.buf n ∧ t'.buf.nh = some ip := by
  unfold bufferNh
  by_cases h : t.buf.nh = some ip
  · rw [if_pos h]
    exact ⟨t, [], rfl, by rw [List.append_nil]; exact g, Grow.refl t ts, by unfold Room at hr ⊢; omega, h⟩
  · rw [if_neg h]
    unfold Room at hr
    obtain ⟨T, R, h1⟩ := message_fit hc now t 7 6 ([1, 0] ++ ip) (by decide) (by simp [hip]) (by decide) (by omega)
    rw [h1]
    simp only [Option.bind_eq_bind, Option.bind_some]
    have hone : ∀ e s, one e s 7 ([1, 0] ++ ip) = ({ s with v4Nh := some (v4tov6 ip) }, []) := by
      intro e s
      have := one_of (C50_nh e s 1 0 ip (v4tov6 ip) [] (.v4 ip hip))
      rw [List.append_nil] at this
      exact this
    refine ⟨_, [.tlv 7 ([1, 0] ++ ip)], rfl, ?_, ⟨rfl, rfl, rfl, rfl, rfl, ?_⟩, ?_, rfl⟩
    · refine g.add 7 _ (by decide) (by decide) (by decide) (by simp [hip]) (by simp [hip]; omega) rfl rfl rfl ?_ ?_ ?_ ?_
      · intro e x hx; rw [many_snoc, hone]; exact g.id e x hx
      · intro e x hx
        rw [many_snoc, hone]
        cases hx; rfl
      · intro e x hx; rw [many_snoc, hone]; exact g.pfx e x hx
      · intro e; rw [many_snoc, hone]; exact g.v6 e
    · intro e; rw [its_single, hone]; rfl
    · unfold Room addTlv; simp [Tlv.enc, hip]; omega

theorem id_ok (id : Bytes) (hid : id.length = 8) (fp : Bool) (g : Good a tf t.buf ts) (n : Nat) (hr : Room a t.buf (12 + n)) :
    ∃ fl t' new, bufferId o c now id fp t = some (fl, t') ∧ Good a tf { t'.buf with id := none } (ts ++ new) ∧
      Grow t t' ts new (fun _ => []) ∧ Room a t'.buf n ∧ t'.buf.nh = t.buf.nh ∧ t'.buf.prefix_ = t.buf.prefix_ ∧
      t'.buf.id = some id ∧
      ((fl = 0 ∧ ∀ e, (many e {} (ts ++ new)).1.routerId = some id) ∨ (fl = 0x40 ∧ fp = true)) := by
  unfold bufferId
  have gw := fun (b : Buf) (ts : List Tlv) (g : Good a tf b ts) =>
    (g.weaken (b' := { b with id := none }) rfl rfl rfl (.inr rfl) (.inl rfl) (.inl rfl))
  by_cases h : t.buf.id = some id
  · rw [if_pos h]
    refine ⟨0, t, [], rfl, by rw [List.append_nil]; exact gw _ _ g, Grow.refl t ts, by unfold Room at hr ⊢; omega, rfl, rfl, h,
      .inl ⟨rfl, ?_⟩⟩
    intro e; rw [List.append_nil]; exact g.id e id h
  rw [if_neg h]
  cases fp with
  | true =>
    rw [if_pos rfl]
    refine ⟨_, _, [], rfl, ?_, ⟨rfl, rfl, rfl, rfl, rfl, fun _ => rfl⟩, ?_, rfl, rfl, rfl, .inr ⟨rfl, rfl⟩⟩
    · rw [List.append_nil]
      exact gw t.buf ts g
    · unfold Room at hr ⊢; show t.buf.bytes.length + n + reserve a ≤ t.buf.size; omega
  | false =>
    rw [if_neg (by decide)]
    unfold Room at hr
    rw [htons_eq]
    obtain ⟨T, R, h1⟩ := message_fit hc now t 6 10 (be16 0 ++ id) (by decide) (by simp [hid, be16_length]) (by decide) (by omega)
    rw [h1]
    simp only [Option.bind_eq_bind, Option.bind_some]
    have hone : ∀ e s, one e s 6 (be16 0 ++ id) = ({ s with routerId := some id }, []) := by
      intro e s
      have := one_of (C50_routerId e s 0 id [] hid)
      rw [List.append_nil] at this
      exact this
    refine ⟨_, _, [.tlv 6 (be16 0 ++ id)], rfl, ?_, ⟨rfl, rfl, rfl, rfl, rfl, ?_⟩, ?_, rfl, rfl, rfl, .inl ⟨rfl, ?_⟩⟩
    · refine g.add 6 _ (by decide) (by decide) (by decide) (by simp [hid, be16_length]) (by simp [hid, be16_length]; omega) rfl rfl rfl ?_ ?_ ?_ ?_
      · intro e x hx; cases hx
      · intro e x hx; rw [many_snoc, hone]; exact g.nh e x hx
      · intro e x hx; rw [many_snoc, hone]; exact g.pfx e x hx
      · intro e; rw [many_snoc, hone]; exact g.v6 e
    · intro e; rw [its_single, hone]; rfl
    · unfold Room addTlv; simp [Tlv.enc, hid, be16_length]; omega
    · intro e; rw [many_snoc, hone]

end

/-- The decoding of the updates we send. -/
theorem upd4 (e : PEnv) (s : PState) (ae : UInt8) (hae : ae = 1 ∨ ae = 4) (plen : UInt8) (interval seqno metric : Nat) (wire sub pfx id : Bytes)
    (src : Bytes × Nat)
    (h1 : interval < 65536) (h2 : seqno < 65536) (h3 : metric < 65536)
    (hp : Encoded ae.toNat plen.toNat 0 (defaultFor s ae.toNat) wire pfx) (hs : ReadSource ae.toNat sub src)
    (hid : s.routerId = some id) (hnh : ae = 1 → s.v4Nh ≠ none) (h6 : s.v6Nh = none) :
    one e s 8 (updateFixed ae 0 plen 0 interval seqno metric ++ wire ++ sub) =
      if ae = 1 ∨ e.v4viav6 = true then
        (s, [.update (some id) ⟨pfx, plen.toNat + 96, src.1, src.2⟩ seqno metric interval
          (if ae = 1 then s.v4Nh else some e.sender)])
      else (s, []) := by
  by_cases hv : ae = 1 ∨ e.v4viav6 = true
  · rw [if_pos hv]
    have := (C50_update e s ae 0 plen 0 interval seqno metric wire sub pfx h1 h2 h3 (by rcases hae with rfl | rfl <;> decide)
      (by rintro rfl; rcases hv with h | h; exact absurd h (by decide); exact h) (.inl rfl) hp).1 src hs
    rw [one_of this]
    have e1 : withId (withDefault s (0 : UInt8).toNat ae.toNat pfx) (0 : UInt8).toNat ae.toNat pfx = s := by
      simp [withId, withDefault]
    rw [e1]
    unfold announces
    rcases hae with rfl | rfl
    · rw [if_neg (by decide), if_neg (by rw [hid]; rintro ⟨_, h | h⟩; cases h; exact hnh rfl h.2), hid]
      rfl
    · rw [if_neg (by decide), if_neg (by rw [hid]; rintro ⟨_, h | h⟩; cases h; exact absurd h.1 (by decide)), hid, h6]
      rfl
  · rw [if_neg hv]
    have h4 : ae = 4 := by rcases hae with h | h; exact absurd (.inl h) hv; exact h
    have hf : e.v4viav6 = false := by
      rw [Bool.eq_false_iff]; exact fun h => hv (.inr h)
    have := C50_update_unknown e s ae 0 plen 0 interval seqno metric (wire ++ sub) (.inr ⟨h4, hf⟩)
    rw [List.append_assoc]
    exact one_of this

theorem upd6 (e : PEnv) (s : PState) (df fp : Bool) (plen om : UInt8) (interval seqno metric : Nat) (wire sub pfx id : Bytes)
    (src : Bytes × Nat)
    (h1 : interval < 65536) (h2 : seqno < 65536) (h3 : metric < 65536) (hom : om = 0 ∨ s.v6Prefix.isSome = true)
    (hp : Encoded 2 plen.toNat om.toNat s.v6Prefix wire pfx) (hs : ReadSource 2 sub src)
    (hid : if fp then pfx.drop 8 = id else s.routerId = some id) (h6 : s.v6Nh = none) :
    one e s 8 (updateFixed 2 (UInt8.ofNat ((if df then 0x80 else 0) + if fp then 0x40 else 0)) plen om interval seqno metric ++ wire ++ sub) =
        ({ s with v6Prefix := if df then some pfx else s.v6Prefix, routerId := some id },
          [.update (some id) ⟨pfx, plen.toNat, src.1, src.2⟩ seqno metric interval (some e.sender)]) := by
  have := (C50_update e s 2 (UInt8.ofNat ((if df then 0x80 else 0) + if fp then 0x40 else 0)) plen om interval seqno metric wire sub pfx h1 h2 h3 (by decide)
      (fun h => absurd h (by decide)) hom hp).1 src hs
  rw [one_of this]
  have e1 : withId (withDefault s (UInt8.ofNat ((if df then 0x80 else 0) + if fp then 0x40 else 0)).toNat (2 : UInt8).toNat pfx)
      (UInt8.ofNat ((if df then 0x80 else 0) + if fp then 0x40 else 0)).toNat (2 : UInt8).toNat pfx =
      { s with v6Prefix := if df then some pfx else s.v6Prefix, routerId := some id } := by
    cases df <;> cases fp
    · show s = _
      rw [if_neg (by decide)] at hid
      rw [← hid]; rfl
    · rw [if_pos rfl] at hid
      show { s with routerId := some (pfx.drop 8) } = _
      rw [hid]; rfl
    · rw [if_neg (by decide)] at hid
      show { s with v6Prefix := some pfx } = _
      rw [← hid]; rfl
    · rw [if_pos rfl] at hid
      show { s with v6Prefix := some pfx, routerId := some (pfx.drop 8) } = _
      rw [hid]; rfl
  rw [e1]
  unfold announces
  rw [if_neg (show ¬ (2 : UInt8).toNat = 0 by decide),
    if_neg (show ¬ (metric < 65535 ∧ ((some id : Option Bytes) = none ∨ (2 : UInt8).toNat = 1 ∧ s.v4Nh = none)) by
      rintro ⟨_, h | h⟩
      · cases h
      · exact absurd h.1 (by decide))]
  simp [h6]

theorem be16_mod' (n : Nat) : htons n = be16 (n % 65536) := by
  rw [htons_eq, be16_mod]

section
variable {a tf : Bool} {o : Orc} {c : SIf} (hc : Circ a tf o c) (now : Timeval) {t : Tx} {ts : List Tlv}
include hc

theorem updTlv_ok (ae fl plen om sq m : Nat) (pfx sub : Bytes) (hr : Room a t.buf 47) (hpl : plen ≤ 128)
    (ho : om ≤ plen / 8) (hpf : (plen + 7) / 8 ≤ pfx.length) (hsub : sub.length ≤ 19) :
    ∃ T R, bufferUpdateTlv o c now ae fl plen om sq m pfx sub t = some (addTlv t (.tlv 8
      (updateFixed (UInt8.ofNat ae) (UInt8.ofNat fl) (UInt8.ofNat plen) (UInt8.ofNat om) ((c.updateInterval + 5) / 10 % 65536) sq m ++
        (pfx.drop om).take ((plen + 7) / 8 - om) ++ sub)) T R) := by
  unfold bufferUpdateTlv
  unfold Room at hr
  have hb : ([UInt8.ofNat ae, UInt8.ofNat fl, UInt8.ofNat plen, UInt8.ofNat om] ++
      htons ((c.updateInterval + 5) / 10) ++ htons sq ++ htons m ++ (pfx.drop om).take ((plen + 7) / 8 - om) ++ sub : Bytes) =
      updateFixed (UInt8.ofNat ae) (UInt8.ofNat fl) (UInt8.ofNat plen) (UInt8.ofNat om) ((c.updateInterval + 5) / 10 % 65536) sq m ++
        (pfx.drop om).take ((plen + 7) / 8 - om) ++ sub := by
    rw [be16_mod', htons_eq, htons_eq]; rfl
  rw [hb]
  exact message_fit hc now t 8 _ _ (by decide) (by simp [updateFixed, be16_length]; omega) (by omega) (by omega)

/-- An IPv4 update TLV. -/
theorem upd4_ok (ae : Nat) (hae : ae = 1 ∨ ae = 4) (fl : Nat) (id : Bytes) (k : PKey) (sq m : Nat) (sub : Bytes)
    (hk : KeyOk k) (hv : isV4 k) (hsq : sq < 65536) (hm : m < 65536)
    (hs : ReadSource ae sub ((canonical k).srcPrefix, (canonical k).srcPlen)) (hsl : sub.length ≤ 19) (hr : Room a t.buf 47)
    (g : Good a tf { t.buf with id := none } ts) (hid : t.buf.id = some id) (hfl : fl = 0)
    (hrid : ∀ e, (many e {} ts).1.routerId = some id) (hnh : ae = 1 → ∃ ip, t.buf.nh = some ip) :
    ∃ t' new, bufferUpdateTlv o c now ae fl (k.plen - 96) 0 sq m (k.prefix_.drop 12) sub t = some t' ∧
      Good a tf t'.buf (ts ++ new) ∧ Grow t t' ts new (fun e =>
        if ae = 1 ∨ e.v4viav6 = true then
          [.update (some id) (canonical k) sq m ((c.updateInterval + 5) / 10 % 65536)
            (if ae = 1 then t.buf.nh.map v4tov6 else some e.sender)]
        else []) := by
  have hpl := hk.1.1
  have hpl2 := hk.1.2.1
  have hv1 := hv.1
  subst hfl
  obtain ⟨T, R, h1⟩ := updTlv_ok hc now ae 0 (k.plen - 96) 0 sq m (k.prefix_.drop 12) sub hr (by omega) (by omega)
    (by simp; omega) hsl
  have hb : (UInt8.ofNat (k.plen - 96)).toNat = k.plen - 96 := by simp; omega
  have haet : (UInt8.ofNat ae).toNat = ae := by rcases hae with rfl | rfl <;> rfl
  have hae8 : UInt8.ofNat ae = 1 ∨ UInt8.ofNat ae = 4 := by rcases hae with rfl | rfl; exact .inl rfl; exact .inr rfl
  have hae1 : UInt8.ofNat ae = 1 ↔ ae = 1 := by rcases hae with rfl | rfl <;> decide
  have hone := fun e => upd4 e (many e {} ts).1 (UInt8.ofNat ae) hae8 (UInt8.ofNat (k.plen - 96)) ((c.updateInterval + 5) / 10 % 65536) sq m
    ((k.prefix_.drop 12).take ((k.plen - 96 + 7) / 8)) sub k.prefix_ id _ (by omega) hsq hm
    (by rw [hb, haet]; exact enc4 hk.1 hv.1 hv.2 ae hae _) (by rw [haet]; exact hs) (hrid e)
    (by
      intro h hn
      obtain ⟨ip, hip⟩ := hnh (hae1.1 h)
      rw [g.nh e ip hip] at hn
      cases hn) (g.v6 e)
  rw [hb, show k.plen - 96 + 96 = k.plen by omega] at hone
  have hst : ∀ e, (one e (many e {} ts).1 8 (updateFixed (UInt8.ofNat ae) 0 (UInt8.ofNat (k.plen - 96)) 0
      ((c.updateInterval + 5) / 10 % 65536) sq m ++ (k.prefix_.drop 12).take ((k.plen - 96 + 7) / 8) ++ sub)).1 = (many e {} ts).1 := by
    intro e; rw [hone]; split <;> rfl
  refine ⟨_, [.tlv 8 (updateFixed (UInt8.ofNat ae) 0 (UInt8.ofNat (k.plen - 96)) 0
      ((c.updateInterval + 5) / 10 % 65536) sq m ++ (k.prefix_.drop 12).take ((k.plen - 96 + 7) / 8) ++ sub)], h1, ?_, ⟨rfl, rfl, rfl, rfl, rfl, ?_⟩⟩
  · unfold Room at hr
    refine g.add 8 _ (by decide) (by decide) (by decide) (by simp [updateFixed, be16_length]; omega)
      (by simp [updateFixed, be16_length]; omega) rfl rfl rfl ?_ ?_ ?_ ?_
    · intro e x hx
      rw [many_snoc, hst, hrid e]
      have : t.buf.id = some x := hx
      rw [hid] at this; exact this
    · intro e x hx; rw [many_snoc, hst]; exact g.nh e x hx
    · intro e x hx; rw [many_snoc, hst]; exact g.pfx e x hx
    · intro e; rw [many_snoc, hst]; exact g.v6 e
  · intro e
    rw [its_single, hone]
    have hcan : (⟨k.prefix_, k.plen, (canonical k).srcPrefix, (canonical k).srcPlen⟩ : PKey) = canonical k := by
      rw [← (canonical_pfx k).1, ← (canonical_pfx k).2]
    rcases hae with rfl | rfl
    · obtain ⟨ip, hip⟩ := hnh rfl
      have := g.nh e ip hip
      simp [untimed, hcan, hip, this]
    · by_cases h6 : e.v4viav6 = true
      · simp [untimed, hcan, h6]
      · simp [untimed, hcan, h6]

/-- An IPv6 update TLV. -/
theorem upd6_ok (df : Bool) (fl : Nat) (fp : Bool) (id : Bytes) (k : PKey) (om sq m : Nat) (sub : Bytes)
    (hk : KeyOk k) (hv : ¬ isV4 k) (hsq : sq < 65536) (hm : m < 65536)
    (hs : ReadSource 2 sub ((canonical k).srcPrefix, (canonical k).srcPlen)) (hsl : sub.length ≤ 19) (hr : Room a t.buf 47)
    (g : Good a tf { t.buf with id := none } ts) (hid : t.buf.id = some id)
    (hfl : (fl = 0 ∧ ∀ e, (many e {} ts).1.routerId = some id) ∨ (fl = 0x40 ∧ k.prefix_.drop 8 = id))
    (hom : om = omittedBytes t.buf.prefix_ k) :
    ∃ t' new, bufferUpdateTlv o c now 2 ((if df then 0x80 else 0) + fl) k.plen om sq m k.prefix_ sub t = some t' ∧
      Good a tf (if df then { t'.buf with prefix_ := some k.prefix_ } else t'.buf) (ts ++ new) ∧ Grow t t' ts new (fun e =>
          [.update (some id) (canonical k) sq m ((c.updateInterval + 5) / 10 % 65536) (some e.sender)]) := by
  have hpl := hk.1.1
  have hpl2 := hk.1.2.1
  have ho : om ≤ k.plen / 8 := by
    rw [hom]
    cases t.buf.prefix_ with
    | some d => exact (shared_take _ _ _).1
    | none => exact Nat.zero_le _
  obtain ⟨T, R, h1⟩ := updTlv_ok hc now 2 ((if df then 0x80 else 0) + fl) k.plen om sq m k.prefix_ sub hr (by omega) ho
    (by omega) hsl
  have hb : (UInt8.ofNat k.plen).toNat = k.plen := by simp; omega
  have hbo : (UInt8.ofNat om).toNat = om := by simp; omega
  obtain ⟨fp', hfl1, hfl2⟩ : ∃ fp' : Bool, fl = (if fp' then 0x40 else 0) ∧
      ∀ e, if fp' then k.prefix_.drop 8 = id else (many e {} ts).1.routerId = some id := by
    rcases hfl with ⟨h, h'⟩ | ⟨h, h'⟩
    · exact ⟨false, h, fun e => h' e⟩
    · exact ⟨true, h, fun e => h'⟩
  have henc : ∀ e, Encoded 2 k.plen om (many e {} ts).1.v6Prefix ((k.prefix_.drop om).take ((k.plen + 7) / 8 - om)) k.prefix_ := by
    intro e
    cases hd : t.buf.prefix_ with
    | none =>
      rw [hd] at hom
      subst hom
      exact enc6 hk.1 _
    | some d =>
      rw [hd] at hom
      obtain ⟨g1, g2, g3⟩ := g.pfx e d hd
      rw [g1]
      refine enc6om hk.1 d om ho g3 ?_
      rw [hom]
      exact (shared_take _ _ _).2
  have hone := fun e => upd6 e (many e {} ts).1 df fp' (UInt8.ofNat k.plen) (UInt8.ofNat om) ((c.updateInterval + 5) / 10 % 65536) sq m
    ((k.prefix_.drop om).take ((k.plen + 7) / 8 - om)) sub k.prefix_ id _ (by omega) hsq hm
    (by
      cases hd : t.buf.prefix_ with
      | none => rw [hd] at hom; left; rw [hom]; rfl
      | some d => right; rw [(g.pfx e d hd).1]; rfl)
    (by rw [hb, hbo]; exact henc e) hs (hfl2 e) (g.v6 e)
  rw [hb, ← hfl1] at hone
  have hcan : (⟨k.prefix_, k.plen, (canonical k).srcPrefix, (canonical k).srcPlen⟩ : PKey) = canonical k := by
    rw [← (canonical_pfx k).1, ← (canonical_pfx k).2]
  refine ⟨_, [.tlv 8 (updateFixed 2 (UInt8.ofNat ((if df then 0x80 else 0) + fl)) (UInt8.ofNat k.plen) (UInt8.ofNat om)
      ((c.updateInterval + 5) / 10 % 65536) sq m ++ (k.prefix_.drop om).take ((k.plen + 7) / 8 - om) ++ sub)], h1, ?_, ⟨rfl, rfl, rfl, rfl, rfl, ?_⟩⟩
  · unfold Room at hr
    have hl : (updateFixed 2 (UInt8.ofNat ((if df then 0x80 else 0) + fl)) (UInt8.ofNat k.plen) (UInt8.ofNat om)
      ((c.updateInterval + 5) / 10 % 65536) sq m ++ (k.prefix_.drop om).take ((k.plen + 7) / 8 - om) ++ sub).length ≤ 45 := by
      simp [updateFixed, be16_length]; omega
    have hsz : ∀ b : Buf, (if df then { b with prefix_ := some k.prefix_ } else b).size = b.size := by intro b; split <;> rfl
    have hby : ∀ b : Buf, (if df then { b with prefix_ := some k.prefix_ } else b).bytes = b.bytes := by intro b; split <;> rfl
    have hhe : ∀ b : Buf, (if df then { b with prefix_ := some k.prefix_ } else b).hello = b.hello := by intro b; split <;> rfl
    have hii : ∀ b : Buf, (if df then { b with prefix_ := some k.prefix_ } else b).id = b.id := by intro b; split <;> rfl
    have hnn : ∀ b : Buf, (if df then { b with prefix_ := some k.prefix_ } else b).nh = b.nh := by intro b; split <;> rfl
    refine g.add 8 _ (by decide) (by decide) (by decide) (by omega)
      (by show t.buf.bytes.length + _ + _ ≤ t.buf.size; omega) (hsz _) (hby _) (hhe _) ?_ ?_ ?_ ?_
    · intro e x hx
      rw [hii] at hx
      have hx : t.buf.id = some x := hx
      rw [many_snoc, hone]
      rw [hid] at hx; exact hx
    · intro e x hx; rw [hnn] at hx; rw [many_snoc, hone]; exact g.nh e x hx
    · intro e x hx
      rw [many_snoc, hone]
      cases df with
      | true =>
        cases hx
        exact ⟨rfl, hpl, not_mapped hk.1 hv⟩
      | false => exact g.pfx e x hx
    · intro e; rw [many_snoc, hone]; exact g.v6 e
  · intro e
    rw [its_single, hone]
    simp [untimed, hcan]

end

end Babel
