import Verif.Lemmas.Unicast2
import Verif.Spec.Hello
/-
What is read in the packets that contain hellos and IHUs.
-/
set_option linter.unusedSimpArgs false
set_option linter.unusedVariables false
set_option linter.unusedSectionVars false
namespace Babel
open Spec

theorem LinkOk.weaken {e : DCfg} {s0 : St} {Q Q' : Snd → Prop} {i : IfId} {F : Prop} {C : Buf → Prop} {L : Bool → List Out → Nat → Link → Prop}
    (h : LinkOk e s0 Q i F C L) (hQ : ∀ op, Q' op → Q op) : LinkOk e s0 Q' i F C L :=
  ⟨fun b done done' fresh l now j op h1 h2 => h.lstep b done done' fresh l now j op h1 (hQ op h2), h.lmono, h.laddr, h.ldown, h.lup⟩

/-- In addition, the buffer of an interface that does not go down makes sense. -/
structure TalkL (e : DCfg) (S : Prop) (i : IfId) (b : Bool) (fresh : Nat) (l : Link) : Prop where
  own : OwnL e i b fresh l
  zero : S → ∃ ts, Good (e.ifs i).key.isSome (e.ifs i).timestamps (l.bufs 0) ts

theorem TalkL.good {e : DCfg} {S : Prop} {i : IfId} {b : Bool} {fresh : Nat} {l : Link} (h : TalkL e S i b fresh l) {j : Nat} (hj : j ≠ 0 ∨ S) :
    ∃ ts, Good (e.ifs i).key.isSome (e.ifs i).timestamps (l.bufs j) ts := by
  by_cases h0 : j = 0
  · subst h0
    exact h.zero (hj.resolve_left fun h => h rfl)
  · exact h.own.good j h0

theorem talkL_start {e : DCfg} {S : Prop} {i : IfId} {b : Bool} {l : Link} (h : FreshLink l) : TalkL e S i b 1 l :=
  ⟨ownL_start h, fun _ => ⟨[], (Spec.FreshLink.good h).good 0⟩⟩

theorem talkL_ok {e : DCfg} (he : DCfgOk e) (s0 : St) (i : IfId) (S : Prop) (C : Buf → Prop) :
    LinkOk e s0 SndFine i (¬ S) C (fun b _ fresh l => TalkL e S i b fresh l) where
  lstep := by
    intro b done done' fresh l now j op h hq hj hb hm hc hu
    obtain ⟨l', r1, r2⟩ := (ownL_ok he s0 i (¬ S) C).lstep b done done' fresh l now j op h.own hq hj hb hm hc hu
    refine ⟨l', r1, r2, fun hS => ?_⟩
    by_cases hxj : 0 = j
    · subst hxj
      obtain ⟨ts, g⟩ := h.zero hS
      obtain ⟨ts', ps, g', _⟩ := lstep_own (circ_at he s0 i (b := b) (hb.imp_right (·.2))) hq.1 g h.own.safe.idx r1
      exact ⟨ts', g'⟩
    · obtain ⟨_, _, _, h3, _⟩ := step_out r1
      rw [h3 0 hxj]
      exact h.zero hS
  lmono := fun b done done' fresh l h _ _ => h
  laddr := fun done fresh l a h hf => by
    refine ⟨(ownL_ok he s0 i (¬ S) C).laddr done fresh l a h.own hf, fun hS => ?_⟩
    obtain ⟨ts, g⟩ := h.zero hS
    refine ⟨ts, ?_⟩
    show Good _ _ (if 0 = fresh then { l.bufs 0 with dst := a } else l.bufs 0) ts
    rw [if_neg (by omega)]
    exact g
  ldown := fun done fresh l hF hC h => ⟨(ownL_ok he s0 i (¬ S) C).ldown done fresh l hF hC h.own, fun hS => absurd hS hF⟩
  lup := fun done fresh l mtu fi hF hm h => ⟨(ownL_ok he s0 i (¬ S) C).lup done fresh l mtu fi hF hm h.own, fun hS => absurd hS hF⟩

/-- Neither hello nor IHU. -/
def mute : Snd → Bool
  | .hello _ _ _ _ => false
  | .ihu _ _ _ _ => false
  | _ => true

/-- The invariant, for operations in `Q0`; the interfaces in `S` do not go down. -/
def talkKit (e : DCfg) (X : PKey → Prop) (s0 : St) (S : IfId → Prop) (Q0 : Snd → Prop) : Kit :=
  ⟨e, Proper, X, fun op => SndFine op ∧ Q0 op, 0, fun _ _ => True, s0, fun i => ¬ S i, fun _ _ => True, fun i b _ fresh l => TalkL e (S i) i b fresh l⟩

theorem talkKit_ok {e : DCfg} (he : DCfgOk e) {X : PKey → Prop} (hX : ∀ a b, X a → X b → Proper ⟨a.prefix_, b.plen, b.srcPrefix, a.srcPlen⟩)
    (s0 : St) (S : IfId → Prop) {Q0 : Snd → Prop} (hQ : ∀ op, mute op = true → Q0 op) : (talkKit e X s0 S Q0).Ok := by
  have h := properKit_ok he hX s0 (F := fun i => ¬ S i) (C := fun _ _ => True) (L := fun i b _ fresh l => TalkL e (S i) i b fresh l)
    fun i => talkL_ok he s0 i (S i) _
  exact
    { nonces := h.nonces
      penalty := h.penalty
      rules := h.rules
      matched := h.matched
      upd := fun id k q m a b c d => ⟨h.upd id k q m a b c d, hQ _ rfl⟩
      req := fun k a => ⟨h.req k a, hQ _ rfl⟩
      seq := fun k q id n a b c d => ⟨h.seq k q id n a b c d, hQ _ rfl⟩
      ack := fun n i a b => ⟨h.ack n i a b, hQ _ rfl⟩
      challenge := fun b a => ⟨h.challenge b a, hQ _ rfl⟩
      reply := fun b a => ⟨h.reply b a, hQ _ rfl⟩
      links := fun i => (h.links i).weaken fun _ a => a.1
      t1 := h.t1
      cost := h.cost
      free := h.free }

theorem talk_inv {e : DCfg} {X : PKey → Prop} {s0 : St} {S : IfId → Prop} {Q0 Q1 : Snd → Prop} {d : Daemon} (h : DInv (talkKit e X s0 S Q0) d) :
    DInv (talkKit e X s0 S Q1) d := ⟨h.keys, h.time, h.ifs, h.links, h.bufs, h.pos, h.dead⟩

/-! ### What is read -/

/-- What is read, of some kind. -/
def reads {β : Type} (f : Item → Option β) (E : PEnv) (l : Link) (j : Nat) : List β := (wholly E l j).filterMap f

theorem reads_own {β : Type} (f : Item → Option β) {a tf : Bool} {l : Link} {j : Nat} {ts : List Tlv} (g : Good a tf (l.bufs j) ts) {E : PEnv}
    (hE : linklocal E.sender = true) : reads f E l j = ((sentOn l j).flatMap (heard E) ++ its E {} ts).filterMap f := by
  unfold reads wholly unsent
  rw [heard_buf g E hE]

theorem reads_same {β : Type} (f : Item → Option β) {E : PEnv} {l l' : Link} {j : Nat} (h1 : sentOn l' j = sentOn l j)
    (h2 : (l'.bufs j).bytes = (l.bufs j).bytes) : reads f E l' j = reads f E l j := by
  unfold reads wholly unsent
  rw [h1, h2]

theorem told_mute {β : Type} {f : Item → Option β} (hf : ∀ it, isChat it = false → f it = none) (E : PEnv) (c : SIf) (b : Bool) {op : Snd}
    (h : mute op = true) : (told E c b op).filterMap f = [] := by
  have key : ∀ l : List Item, (∀ it ∈ l, isChat it = false) → l.filterMap f = [] := fun l hl =>
    List.filterMap_eq_nil_iff.2 fun it hit => hf it (hl it hit)
  apply key
  cases op with
  | hello => cases h
  | ihu => cases h
  | request k =>
    cases k with
    | none => simp [told, isChat]
    | some k => simp only [told]; split <;> simp [isChat]
  | update id k s m => simp only [told]; split <;> simp [isChat]
  | seqnoRequest k s id h => simp only [told]; split <;> simp [isChat]
  | _ => simp [told, isChat]

section
variable {e : DCfg} {X : PKey → Prop} {s0 : St} {S : IfId → Prop} {Q0 : Snd → Prop} (he : DCfgOk e) {d d' : Daemon} {E : PEnv}
  (hE : linklocal E.sender = true) {β : Type} {f : Item → Option β}

theorem HoldsAt.talk (h : HoldsAt (talkKit e X s0 S Q0) d) (i : IfId) : TalkL e (S i) i (ifUp d.st i) (d.fresh i) (d.link i) := by
  obtain ⟨done, h⟩ := h
  exact h.links i

theorem HoldsAt.tsif (h : HoldsAt (talkKit e X s0 S Q0) d) (i : IfId) : sifOf e d.st i = sifAt e s0 i (ifUp d.st i) := by
  obtain ⟨done, h⟩ := h
  exact sif_core h.ifs i

include he in
theorem Wrote.tcirc {i : IfId} {j : Nat} {op : Snd} (h : Wrote (talkKit e X s0 S Q0) d i j op d') :
    Circ (e.ifs i).key.isSome (e.ifs i).timestamps (e.orc i) (sifOf e d.st i) := by
  rw [h.at_.tsif i]
  apply circ_at he
  obtain ⟨done, h1⟩ := h.at_
  cases hu : ifUp d.st i with
  | true => exact .inl rfl
  | false =>
    refine .inr ?_
    rcases h1.dead i hu with h2 | h2
    · exact h2
    · have := h.lt
      rcases h.up with h3 | h3
      · rw [hu] at h3; cases h3
      · omega

include he hE in
theorem wrote_talks {i i0 : IfId} {j j0 : Nat} {op : Snd} (h : Wrote (talkKit e X s0 S Q0) d i j op d') (h0 : j0 ≠ 0 ∨ S i0) :
    reads f E (d'.link i0) j0 = reads f E (d.link i0) j0 ++
      if (i, j) = (i0, j0) then (told E (sifOf e d.st i0) ((d.link i0).bufs j0).hello.isSome op).filterMap f else [] := by
  have hc := h.tcirc he
  have hq := h.q
  have ho := h.at_.talk i
  obtain ⟨l, h1, rfl⟩ := h.step
  by_cases hi : i0 = i
  · subst hi
    show reads f E (if i0 = i0 then l else d.link i0) j0 = _
    rw [if_pos rfl]
    by_cases hj : j0 = j
    · subst hj
      rw [if_pos rfl]
      obtain ⟨ts, g⟩ := ho.good h0
      obtain ⟨ts', ps, g', e1, _, e2⟩ := lstep_own hc hq.1.1 g ho.own.safe.idx h1
      rw [reads_own f g hE, reads_own f g' hE, e1, List.flatMap_append, List.append_assoc, e2 E hE, ← List.append_assoc, List.filterMap_append]
    · rw [if_neg (by simp only [Prod.mk.injEq]; omega), List.append_nil]
      obtain ⟨_, _, _, h3, _⟩ := step_out h1
      obtain ⟨ps, h4, h5⟩ := step_sent h1 j0
      exact reads_same f (by rw [h4, h5 hj, List.append_nil]) (by rw [h3 _ hj])
  · show reads f E (if i0 = i then l else d.link i0) j0 = _
    rw [if_neg hi, if_neg (by simp only [Prod.mk.injEq]; exact fun h => hi h.1.symm), List.append_nil]

variable (hf : ∀ it, isChat it = false → f it = none)

include he hE hf in
theorem wrote_mute {i i0 : IfId} {j j0 : Nat} {op : Snd} (h : Wrote (talkKit e X s0 S (fun op => mute op = true)) d i j op d') (h0 : j0 ≠ 0 ∨ S i0) :
    reads f E (d'.link i0) j0 = reads f E (d.link i0) j0 := by
  rw [wrote_talks he hE h h0, told_mute hf E _ _ h.q.2, ite_self, List.append_nil]

include he hE hf in
theorem micro_mute {l : Lab} (hd : HoldsAt (talkKit e X s0 S (fun op => mute op = true)) d)
    (h : Micro (talkKit e X s0 S (fun op => mute op = true)) d l d') {i0 : IfId} {j0 : Nat} (h0 : j0 ≠ 0 ∨ S i0) :
    reads f E (d'.link i0) j0 = reads f E (d.link i0) j0 := by
  cases l with
  | post o u =>
    exact h.post_ind (fun x => reads f E (x.link i0) j0 = reads f E (d.link i0) j0)
      (fun _ _ _ _ _ w h => (wrote_mute he hE hf w h0).trans h) rfl
  | to m op =>
    obtain ⟨_, x, _, w⟩ := h
    exact wrote_mute he hE hf w h0
  | chat i j op => exact wrote_mute he hE hf h.2 h0
  | quiet =>
    refine reads_same f ?_ ?_
    · unfold sentOn
      rw [h.out]
    · rw [h.bufs _ _ (h0.imp_right fun hS hn => hn hS)]
  | drop m =>
    obtain ⟨a, rfl⟩ := h
    rfl
  | add m =>
    obtain ⟨hm, rfl⟩ := h
    refine reads_same f ?_ ?_
    · show sentOn (if i0 = e.node.ifOf m then (d.link (e.node.ifOf m)).setDst _ _ else d.link i0) j0 = _
      split
      · next hi => subst hi; rfl
      · rfl
    · show ((if i0 = e.node.ifOf m then (d.link (e.node.ifOf m)).setDst (d.fresh (e.node.ifOf m)) (e.addr m) else d.link i0).bufs j0).bytes = _
      split
      · next hi =>
        subst hi
        show (if j0 = _ then _ else _ : Buf).bytes = _
        split <;> rfl
      · rfl

include he hE hf in
theorem trace_mute {ls : List Lab} (h : Trace (talkKit e X s0 S (fun op => mute op = true)) d ls d') {i0 : IfId} {j0 : Nat} (h0 : j0 ≠ 0 ∨ S i0) :
    reads f E (d'.link i0) j0 = reads f E (d.link i0) j0 := by
  induction h with
  | nil => rfl
  | cons hd h1 _ ih => rw [ih, micro_mute he hE hf hd h1 h0]

end

end Babel
