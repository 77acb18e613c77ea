import Verif.Lemmas.Costs
import Verif.Spec.TwoRoute
import Verif.Props.TwoWay
/-
The costs of routes in a network.
-/
set_option linter.unusedSimpArgs false
set_option linter.unusedVariables false
set_option linter.unusedSectionVars false
namespace Babel
open Spec

theorem rtt_small {now : Timeval} {i : LinkCfg} {l : Nbr} {p : Nat} (hi : i.maxRttPenalty < 2147483648) (h : rttcost now i l = some p) : p < 2147483648 := by
  unfold rttcost at h
  split at h
  · cases h; decide
  · split at h
    · cases h; decide
    · split at h
      · simp only at h
        split at h
        · cases h; assumption
        · cases h
      · cases h; exact hi

attribute [local irreducible] rttcost rxcost in
/-- The cost of a link is at least that of sending. -/
theorem cost_least {now : Timeval} {i : LinkCfg} {l : Nbr} {c : Nat} (hi : i.maxRttPenalty < 2147483648) (h : neighbourCost now i l = some c) (hc : c < INFINITY) :
    l.txcost ≤ c := by
  obtain ⟨h1, h2⟩ := cost_finite h hc
  have hI : (INFINITY : Nat) = 65535 := rfl
  unfold neighbourCost at h
  simp only at h
  split at h
  · cases h
    exact absurd hc (Nat.lt_irrefl _)
  · rw [if_neg (by omega), if_neg (by omega)] at h
    cases hp : rttcost now i l with
    | none => rw [hp] at h; cases h
    | some p =>
      rw [hp] at h
      have hps := rtt_small hi hp
      simp only [Option.some.injEq] at h
      have key : ∀ cost, l.txcost ≤ cost → cost < 16777216 → min (u32 (cost + p)) INFINITY = c → l.txcost ≤ c := by
        intro cost k1 k2 k3
        have : u32 (cost + p) = cost + p := by unfold u32; omega
        rw [this] at k3
        omega
      revert h
      split
      · exact key _ (Nat.le_refl _) (by omega)
      · refine key _ ?_ ?_
        · have hb : max l.txcost 256 * max (rxcost now i l) 256 < 65535 * 65535 :=
            Nat.mul_lt_mul'' (by omega) (by omega)
          have e1 : u32 (max l.txcost 256 * max (rxcost now i l) 256) = max l.txcost 256 * max (rxcost now i l) 256 := by unfold u32; omega
          have e2 : u32 (max l.txcost 256 * max (rxcost now i l) 256 + 128) = max l.txcost 256 * max (rxcost now i l) 256 + 128 := by unfold u32; omega
          rw [e1, e2, Nat.shiftRight_eq_div_pow]
          have : max l.txcost 256 * 256 ≤ max l.txcost 256 * max (rxcost now i l) 256 := Nat.mul_le_mul_left _ (by omega)
          omega
        · have hb : max l.txcost 256 * max (rxcost now i l) 256 < 65535 * 65535 :=
            Nat.mul_lt_mul'' (by omega) (by omega)
          have e1 : u32 (max l.txcost 256 * max (rxcost now i l) 256) = max l.txcost 256 * max (rxcost now i l) 256 := by unfold u32; omega
          have e2 : u32 (max l.txcost 256 * max (rxcost now i l) 256 + 128) = max l.txcost 256 * max (rxcost now i l) 256 + 128 := by unfold u32; omega
          rw [e1, e2, Nat.shiftRight_eq_div_pow]
          omega

section
variable {e : DCfg} {K : NeighId → Nbr → Prop} {P : NeighId → Nat → Prop}
  (hP : ∀ n, P n INFINITY) (hK : ∀ n l now s v, K n l → neighbourCost now (linkCfgOf e s (e.node.ifOf n)) l = some v → P n v)

theorem LinkInv.talkWrite {d : Daemon} {seq : IfId → UInt16} {useq : NeighId → UInt16} {t' : Talk} {i : IfId} {j : Nat} {op : Snd} (h : LinkInv e K P d)
    (hk : Talk.write e ⟨d, seq, useq⟩ i j op = some t') : LinkInv e K P t'.d := by
  unfold Talk.write at hk
  simp only [Option.bind_eq_bind] at hk
  obtain ⟨d', h1, h2⟩ := Option.bind_eq_some_iff.1 hk
  cases h2
  exact h.links (write_only h1)

include hP hK in
theorem LinkInv.multicastHello {t t' : Talk} {i : IfId} {v : Nat} {f : Bool} (h : LinkInv e K P t.d) (hk : t.multicastHello e i v f = some t') : LinkInv e K P t'.d := by
  unfold Talk.multicastHello at hk
  split at hk
  · cases hk; exact h
  split at hk
  · cases hk; exact h
  split at hk
  · split at hk
    · simp only [Option.bind_eq_bind] at hk
      obtain ⟨d, h1, hk⟩ := Option.bind_eq_some_iff.1 hk
      obtain ⟨t1, h2, hk⟩ := Option.bind_eq_some_iff.1 hk
      have g := h.nodeAs (ev := .flushUpdates i) hP hK (fun _ _ h => by cases h) h1
      have g2 := LinkInv.talkWrite g h2
      unfold Talk.newHello at hk
      exact LinkInv.talkWrite g2 hk
    · cases hk; exact h
  · unfold Talk.newHello at hk
    exact LinkInv.talkWrite h hk

theorem LinkInv.unicastHello {t t' : Talk} {n : NeighId} {x : DNbr} (h : LinkInv e K P t.d) (hk : t.unicastHello e n x = some t') : LinkInv e K P t'.d := by
  unfold Talk.unicastHello at hk
  simp only at hk
  split at hk
  · cases hk; exact h
  split at hk
  · cases hk; exact h
  split at hk
  · cases hk; exact h
  · exact LinkInv.talkWrite h hk

include hP hK in
theorem LinkInv.sendIhu {t t' : Talk} {n : NeighId} (h : LinkInv e K P t.d) (hk : t.sendIhu e n = some t') : LinkInv e K P t'.d := by
  unfold Talk.sendIhu at hk
  split at hk
  · cases hk; exact h
  simp only at hk
  split at hk
  · cases hk; exact h
  split at hk
  · simp only [Option.bind_eq_bind] at hk
    obtain ⟨t1, h1, hk⟩ := Option.bind_eq_some_iff.1 hk
    have g := h.talkWrite h1
    split at hk
    · obtain ⟨t2, h2, hk⟩ := Option.bind_eq_some_iff.1 hk
      exact LinkInv.talkWrite (g.unicastHello h2) hk
    · obtain ⟨t2, h2, hk⟩ := Option.bind_eq_some_iff.1 hk
      exact LinkInv.talkWrite (g.multicastHello hP hK h2) hk
  · exact h.talkWrite hk

include hP hK in
theorem LinkInv.sendIhus : ∀ (l : List NeighId) {t t' : Talk}, LinkInv e K P t.d → l.foldlM (fun t n => t.sendIhu e n) t = some t' → LinkInv e K P t'.d
  | [], t, t', h, hk => by cases hk; exact h
  | n :: l, t, t', h, hk => by
    rw [List.foldlM_cons] at hk
    obtain ⟨t1, h1, hk⟩ := Option.bind_eq_some_iff.1 hk
    exact LinkInv.sendIhus l (h.sendIhu hP hK h1) hk

include hP hK in
/-- Hellos and IHUs. -/
theorem LinkInv.chat {t t' : Talk} {ev : TEv} (h : LinkInv e K P t.d) (hev : ∀ x, ev ≠ .ev x) (hk : tstep e t ev = some t') : LinkInv e K P t'.d := by
  cases ev with
  | ev x => exact absurd rfl (hev x)
  | hello i =>
    have hk : t.hello e i = some t' := hk
    unfold Talk.hello at hk
    simp only [Option.bind_eq_bind] at hk
    obtain ⟨t1, h1, hk⟩ := Option.bind_eq_some_iff.1 hk
    unfold Talk.sendIhus at hk
    exact LinkInv.sendIhus hP hK _ (h.multicastHello hP hK h1) hk
  | last i => exact h.multicastHello hP hK hk
  | ihu n => exact h.sendIhu hP hK hk

end

section
variable {Node : Type} [DecidableEq Node] {N : DNet Node} {X : Node → PKey → Prop}

theorem HasWorked.mono {H : List (Node → Talk)} {a b : Node} {n : NeighId} {c : Nat} (h : HasWorked N H a b n c) (T : Node → Talk) : HasWorked N (T :: H) a b n c := by
  obtain ⟨⟨T1, h1, h2⟩, T2, H2, m, y, h3, h4⟩ := h
  exact ⟨⟨T1, List.mem_cons_of_mem _ h1, h2⟩, T2, H2, m, y, h3.trans (List.suffix_cons ..), h4⟩

/-- The network is as it should be. -/
structure Fair (N : DNet Node) (X : Node → PKey → Prop) : Prop where
  ok : DNetOk N X
  addr : ∀ a n, ((N.cfg a).addr n).length = 16
  cost : ∀ a i, ((N.cfg a).ifs i).cost ≤ INFINITY
  owner : ∀ a b m i, (N.cfg b).addr m ∈ ((N.cfg a).ifs i).ll → N.peer b m = a

theorem known_worked (hN : Fair N X) {L : List (Node → Talk)} (hL : L = [] ∨ History N X L) {a : Node} {n : NeighId} {l : Nbr} (hk : Known N L a n l)
    {now : Timeval} {i : LinkCfg} (hi : i.maxRttPenalty < 2147483648) {v : Nat} (hv : neighbourCost now i l = some v) (hf : v < INFINITY) :
    HasWorked N L a (N.peer a n) n v := by
  obtain ⟨h1, h2⟩ := cost_finite hv hf
  have hle := cost_least hi hv hf
  have hear : ∃ T ∈ L, ∃ u, HasSaidHello T (N.peer a n) (penvOf (N.cfg a) n) u := by
    rcases rxcost_finite h2 with hr | hr
    · obtain ⟨T', k1, k2⟩ := hk.hello hr
      exact ⟨T', k1, _, k2⟩
    · obtain ⟨T', k1, k2⟩ := hk.uhello hr
      exact ⟨T', k1, _, k2⟩
  refine ⟨hear, ?_⟩
  rcases hk.tx with h3 | ⟨T', t1, m, y, t2, t3, t4, t5⟩
  · omega
  rcases hL with rfl | hL
  · cases t1
  obtain ⟨H', g1, g2⟩ := history_mem hL t1
  have hp := hN.owner a _ m _ t4
  have hrl : receiveCost N T' (N.peer a n) m y ≤ INFINITY := rxcost_le (hN.cost _ _)
  have hI : (INFINITY : Nat) = 65535 := rfl
  have he : receiveCost N T' (N.peer a n) m y = l.txcost := by omega
  refine ⟨T', H', m, y, g2, t2, hp, by omega, by omega, ?_⟩
  obtain ⟨k1, k2⟩ := C73_heard hN.ok hN.addr g1 t2 hp
  have hy : receiveCost N T' (N.peer a n) m y < INFINITY := by omega
  rcases rxcost_finite hy with hr | hr
  · obtain ⟨T'', k3, k4⟩ := k1 hr
    exact ⟨T'', k3, _, k4⟩
  · obtain ⟨T'', k3, k4⟩ := k2 hr
    exact ⟨T'', k3, _, k4⟩

/-- Initially no link works. -/
def Idle (T : Node → Talk) : Prop := ∀ a n, (T a).d.st.ncost n = INFINITY

theorem history_link (hN : Fair N X) {L : List (Node → Talk)} (h : History N X L) : ∀ {T H}, L = T :: H →
    (∀ T0, L.getLast? = some T0 → Idle T0) → ∀ a, LinkInv (N.cfg a) (Known N H a) (fun n c => c < INFINITY → HasWorked N H a (N.peer a n) n c) (T a).d := by
  have hP : ∀ (H : List (Node → Talk)) a n, INFINITY < INFINITY → HasWorked N H a (N.peer a n) n INFINITY := fun _ _ _ h => absurd h (Nat.lt_irrefl _)
  have hK : ∀ {L : List (Node → Talk)}, L = [] ∨ History N X L → ∀ a n l now s v, Known N L a n l →
      neighbourCost now (linkCfgOf (N.cfg a) s ((N.cfg a).node.ifOf n)) l = some v → v < INFINITY → HasWorked N L a (N.peer a n) n v := by
    intro L hL a n l now s v hk hv hf
    exact known_worked hN hL hk ((hN.ok.cfg a).penalty ((N.cfg a).node.ifOf n)) hv hf
  induction h with
  | init T0 hT =>
    rintro T H hL hI a
    cases hL
    obtain ⟨⟨now, q, ifs, nc, rnd, kr, hs, _⟩, hn, _⟩ := hT a
    have hI := hI T0 rfl a
    refine ⟨?_, ⟨?_, ?_⟩, ?_⟩
    · rw [hs]; exact Inv.init ..
    · rw [hs]; intro r hr; cases hr
    · intro n hc
      rw [hI n] at hc
      exact absurd hc (Nat.lt_irrefl _)
    · rw [hn]; intro p hp; cases hp
  | @step T0 H0 a ev t h ho hk ih =>
    rintro T H hL hI b
    obtain ⟨rfl, rfl⟩ := List.cons.inj hL
    have hI' : ∀ T1, (T0 :: H0).getLast? = some T1 → Idle T1 := by
      intro T1 h1
      exact hI T1 (by rw [List.getLast?_cons_cons]; exact h1)
    have g := ih rfl hI' b
    have g : LinkInv (N.cfg b) (Known N (T0 :: H0) b) (fun n c => c < INFINITY → HasWorked N (T0 :: H0) b (N.peer b n) n c) (T0 b).d :=
      ⟨g.inv, ⟨fun r hr hc => HasWorked.mono (g.costs.routes r hr hc) T0, fun n hc => HasWorked.mono (g.costs.ncost n hc) T0⟩, fun p hp => (g.nbrs p hp).mono T0⟩
    by_cases hb : b = a
    rotate_left
    · show LinkInv _ _ _ (if b = a then t else T0 b).d
      rw [if_neg hb]
      exact g
    subst hb
    show LinkInv _ _ _ (if b = b then t else T0 b).d
    rw [if_pos rfl]
    by_cases hxe : ∃ y, ev = .ev y
    rotate_left
    · exact g.chat (hP _ b) (hK (.inr h) b) (fun y hy => hxe ⟨y, hy⟩) hk
    obtain ⟨y, rfl⟩ := hxe
    have hk : (if isOther y = true then (dstep (N.cfg b) (T0 b).d y).bind (fun d => some _) else some (T0 b)) = some t := hk
    by_cases hoth : isOther y = true
    rotate_left
    · rw [if_neg hoth] at hk
      cases hk
      exact g
    rw [if_pos hoth] at hk
    obtain ⟨d', h1, h2⟩ := Option.bind_eq_some_iff.1 hk
    cases h2
    obtain ⟨s0, T1, H1, hL1, ih1⟩ := history_inv hN.ok hN.addr h
    cases hL1
    have gk := ih1.grows hN.ok ho
    exact dstep_link (hP _ b) (hK (.inr h) b) g gk.fresh gk.rtt gk.check (fun n buf len dst d1 eff he => gk.items n buf len dst d1 eff (by rw [he])) h1

end

end Babel
