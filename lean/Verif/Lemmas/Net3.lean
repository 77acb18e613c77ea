import Verif.Lemmas.Net2
import Verif.Spec.Net
/-
Networks: updates, and the invariant of the whole network.
-/
set_option linter.unusedSimpArgs false
set_option linter.unusedVariables false
set_option linter.unusedSectionVars false
namespace Babel
open Spec

section
variable {c : Cfg} {sk : SKey} {b : UInt16} {Lo : NeighId → Nat → Prop}

/-- `updateExisting`: the assignments, then internal activity. -/
theorem updateExisting_split (c : Cfg) (s : St) (ex : List SKey) (r : Route) (id : Bytes)
    (q : UInt16) (refm add hold : Nat) (hr : findRoute s r.key r.neigh = some r) :
    Ms c {} (applyUpdate c s r.key r.neigh id q refm add hold
      (!updateFeasible s (findSource s ⟨id, r.key⟩) q refm && r.installed && id != r.id)) (r.skey :: ex)
      (updateExisting c s r id q refm add hold) ex := by
  unfold updateExisting
  simp only
  obtain ⟨r', hr', hx, hn⟩ := applyUpdate_find (c := c) id q refm add hold
    (!updateFeasible s (findSource s ⟨id, r.key⟩) q refm && r.installed && id != r.id) hr
  generalize (!updateFeasible s (findSource s ⟨id, r.key⟩) q refm && r.installed && id != r.id) = u
    at hr' hn
  generalize applyUpdate c s r.key r.neigh id q refm add hold u = s5 at hr' hn
  have hfr : Babel.Fresh s5 r.key r.neigh := by
    intro x hx' hm hi
    rw [hr'] at hx'; simp at hx'; subst hx'
    rcases hx with hx | hx
    · rw [hx] at hi; simp at hi
    · obtain ⟨h1, h2⟩ := hx hm
      unfold routeExpired
      rw [h1, h2, hn]
      simp
      omega
  have h2 := routeChanged_ms c {} s5 (r.skey :: ex) r.key r.neigh r.skey (routeMetric r) hfr
  generalize routeChanged c s5 r.key r.neigh r.skey (routeMetric r) = s6 at h2
  refine Ms.step ?_ (.release r.skey)
  split
  · exact h2.trans (routeLost_ms ..)
  · split
    · exact h2.trans ((qms_sendUnfeasible ..).ms _)
    · exact h2

/-- `updateNew`: a request, the insertion, then internal activity. -/
theorem updateNew_split (c : Cfg) (s : St) (ex : List SKey) (k : PKey) (n : NeighId)
    (id : Bytes) (q : UInt16) (refm add hold : Nat) (nh : Bytes) (hr : findRoute s k n = none) :
    ∃ s1, QMs c s s1 ∧ findRoute s1 k n = none ∧
    Ms c {} (notifyRoute { retainSource s1 ⟨id, k⟩ with
      routes := flatInsert s1.routes (newRoute s1 k n id q refm add hold nh) } .add k n) ex
      (updateNew c s k n id q refm add hold (some nh)) ex := by
  unfold updateNew
  simp only
  have key : ∃ s1, (if (!updateFeasible s (findSource s ⟨id, k⟩) q refm) = true then
      sendUnfeasibleRequest c s n false q (min (refm + s.ncost n + add) INFINITY) ⟨id, k⟩ else s) =
      s1 ∧ QMs c s s1 := by
    refine ⟨_, rfl, ?_⟩
    split
    · exact qms_sendUnfeasible ..
    · exact .refl s
  obtain ⟨s1, e1, h1⟩ := key
  rw [e1]
  have hs := h1.same
  have hr1 : findRoute s1 k n = none := by
    have := hs.findRoute k n
    rw [hr] at this
    cases e : findRoute s1 k n with
    | none => rfl
    | some x => rw [e] at this; simp at this
  refine ⟨s1, h1, hr1, ?_⟩
  have e2 : newRoute (retainSource s1 ⟨id, k⟩) k n id q refm add hold nh =
      newRoute s1 k n id q refm add hold nh := rfl
  rw [e2]
  have e3 : (retainSource s1 ⟨id, k⟩).routes = s1.routes := rfl
  rw [e3]
  refine (considerRoute_ms c {} _ ex k n ?_).1
  intro r hr' _ _
  rw [notify_find] at hr'
  have : findRoute { retainSource s1 ⟨id, k⟩ with
      routes := flatInsert s1.routes (newRoute s1 k n id q refm add hold nh) } k n =
      some (newRoute s1 k n id q refm add hold nh) := by
    show flatFind _ k n = _
    rw [flatFind_insert (r := newRoute s1 k n id q refm add hold nh) hr1]
    rw [if_pos ⟨rfl, rfl⟩]
  rw [this] at hr'
  simp at hr'
  subst hr'
  unfold routeExpired
  rw [notifyRoute_now]
  show decide (s1.now.sec < s1.now.sec - (hold : Int)) = false
  simp
  omega

/-- An update is processed. -/
theorem update_net {s : St} (hi : Inv c s []) (hn : NInv c sk b Lo s) (id? : Option Bytes) (k : PKey)
    (q : UInt16) (refm interval : Nat) (n : NeighId) (nh : Option Bytes)
    (hw : id? = some sk.id → k = sk.key → Win b q ∧ (refm < INFINITY → Lo n (rank b (q, refm))))
    (hres : id? = some sk.id → k = sk.key → refm < INFINITY → ∀ r ∈ s.routes, r.key = k → r.neigh = n →
      r.id = sk.id → r.installed = true → INFINITY ≤ r.refmetric →
      updateFeasible s (findSource s sk) q refm = true) :
    NInv c sk b Lo (updateRoute c s id? k q refm interval n nh) ∧
    FdLe b sk s (updateRoute c s id? k q refm interval n nh) := by
  have henv : ¬ (({} : Allow).env) := fun h => h
  have hupd : ∀ n id k q m, ¬ (({} : Allow).upd n id k q m) := fun _ _ _ _ _ h => h
  unfold updateRoute
  split
  · exact ⟨hn, FdLe.refl b sk s⟩
  · next href =>
    obtain ⟨hk, hid, hnone, hadd⟩ := updateRefused_spec (by simpa using href)
    simp only
    split
    · exact ⟨hn, FdLe.refl b sk s⟩
    · next i hr =>
      split
      · exact ⟨hn, FdLe.refl b sk s⟩
      · next hm =>
        have hm : refm < INFINITY := by omega
        have hwin : (⟨i, k⟩ : SKey) = sk → some i = some sk.id ∧ k = sk.key := by
          intro e; rw [← e]; exact ⟨rfl, rfl⟩
        have hsf : sourceFor s none ⟨i, k⟩ q = ensureSource s ⟨i, k⟩ q := by
          unfold sourceFor; rw [if_neg (by simp)]
        rw [hsf]
        have h1 := hn.ensure ⟨i, k⟩ q (fun e => (hw (hwin e).1 (hwin e).2).1)
        have hme : M c (allowUpd (some i) k q refm n nh) s [] (ensureSource s ⟨i, k⟩ q) [] :=
          .ensure ⟨i, k⟩ q ⟨n, refm, rfl, rfl, rfl, rfl, .inl rfl⟩
        have hi1 := hme.inv hi
        have hr1 : findRoute (ensureSource s ⟨i, k⟩ q) k n = none := by
          unfold findRoute at hr ⊢; rw [(ensure_routes ..).1]; exact hr
        have hsome := isSome_ensure s ⟨i, k⟩ q
        generalize ensureSource s ⟨i, k⟩ q = s0 at h1 hi1 hr1 hsome
        cases nh with
        | none => unfold updateNew; exact h1
        | some g =>
          obtain ⟨s1, hq, hr2, hms⟩ := updateNew_split c s0 [] k n i q refm
            (c.inputFilter (some i) k (some n) (c.ifOf n)) (holdTimeOf interval) g hr1
          have hqm : Ms c {} s0 [] s1 [] := hq.ms []
          have h2 := hqm.net henv hupd hi1 h1.1
          have hi2 := hqm.inv hi1
          have h3 := h2.1.insert (k := k) (n := n) (id := i) (q := q) (refm := refm)
            (add := c.inputFilter (some i) k (some n) (c.ifOf n)) (hold := holdTimeOf interval) (nh := g)
            (fun e _ => ⟨(hw (hwin e).1 (hwin e).2).1, (hw (hwin e).1 (hwin e).2).2 hm⟩)
          have hmi : M c (allowUpd (some i) k q refm n (some g)) s1 [] _ [] :=
            .insert k n i q refm (c.inputFilter (some i) k (some n) (c.ifOf n)) (holdTimeOf interval) g hr2
              ⟨rfl, rfl, rfl, rfl, .inl rfl⟩ (hid i rfl) (by rw [hq.same.findSource]; exact hsome) hk hm ⟨rfl, rfl⟩
          have h4 := hms.net henv hupd (hmi.inv hi2) h3.1
          exact ⟨h4.1, ((h1.2.trans h2.2).trans h3.2).trans h4.2⟩
    · next idv _ _ r hr =>
      obtain ⟨hmem, hkk, hnn⟩ := findRoute_mem hr
      subst hkk; subst hnn
      have hgetid : idv.getD r.id ≠ c.myid := by
        cases idv with
        | none => exact (hi.lst.ok r hmem).1
        | some i => exact hid i rfl
      have hallow : (allowUpd idv r.key q refm r.neigh nh).upd r.neigh (idv.getD r.id) r.key q refm := by
        refine ⟨rfl, rfl, rfl, rfl, ?_⟩
        cases idv with
        | none => exact .inr ⟨rfl, hnone rfl⟩
        | some i => exact .inl rfl
      -- the source
      have h1 : NInv c sk b Lo (sourceFor s (some r) ⟨idv.getD r.id, r.key⟩ q) ∧
          FdLe b sk s (sourceFor s (some r) ⟨idv.getD r.id, r.key⟩ q) := by
        unfold sourceFor
        split
        · exact ⟨hn, FdLe.refl b sk s⟩
        · next hne =>
          refine hn.ensure _ q (fun e => ?_)
          cases idv with
          | none => simp at hne
          | some i =>
            refine (hw ?_ ?_).1
            · rw [← e]; rfl
            · rw [← e]
      have hsf : Ms c (allowUpd idv r.key q refm r.neigh nh) s [] (sourceFor s (some r) ⟨idv.getD r.id, r.key⟩ q) [] :=
        sourceFor_ms _ _ _ _ _ _ _ ⟨r.neigh, refm, hallow⟩
      have hi1 := hsf.inv hi
      have hr1 : findRoute (sourceFor s (some r) ⟨idv.getD r.id, r.key⟩ q) r.key r.neigh = some r := by
        unfold findRoute at hr ⊢; rw [sourceFor_routes]; exact hr
      have hsrc : r.id ≠ idv.getD r.id →
          (findSource (sourceFor s (some r) ⟨idv.getD r.id, r.key⟩ q) ⟨idv.getD r.id, r.key⟩).isSome = true := by
        intro hne
        unfold sourceFor
        rw [if_neg (by simpa using hne)]
        exact isSome_ensure ..
      have hsame : idv.getD r.id = r.id → sourceFor s (some r) ⟨idv.getD r.id, r.key⟩ q = s := by
        intro e
        unfold sourceFor
        rw [if_pos (by simp [e])]
      have hres1 : r.skey = sk → idv.getD r.id = r.id → r.installed = true → INFINITY ≤ r.refmetric → refm < INFINITY →
          updateFeasible (sourceFor s (some r) ⟨idv.getD r.id, r.key⟩ q)
            (findSource (sourceFor s (some r) ⟨idv.getD r.id, r.key⟩ q) sk) q refm = true := by
        intro h2 h3 h4 h5 h6
        rw [hsame h3]
        have e1 : r.id = sk.id := by rw [← h2]; rfl
        have e2 : r.key = sk.key := by rw [← h2]; rfl
        refine hres ?_ e2 h6 r hmem rfl rfl e1 h4 h5
        cases idv with
        | none => exact absurd (hnone rfl) (by omega)
        | some i =>
          have : i = r.id := h3
          rw [this, e1]
      generalize sourceFor s (some r) ⟨idv.getD r.id, r.key⟩ q = s0 at h1 hi1 hr1 hsrc hres1
      have h2 := h1.1.apply (add := c.inputFilter idv r.key (some r.neigh) (c.ifOf r.neigh))
        (hold := holdTimeOf interval) hi1 hr1 hsrc rfl
        (fun e hm => by
          cases idv with
          | none => exact absurd (hnone rfl) (by omega)
          | some i =>
            have := hw (by rw [← e]; rfl) (by rw [← e])
            exact ⟨this.1, this.2 hm⟩) hres1
      have hma : M c (allowUpd idv r.key q refm r.neigh nh) s0 [] _ _ :=
        .apply (idv.getD r.id) q refm (c.inputFilter idv r.key (some r.neigh) (c.ifOf r.neigh))
          (holdTimeOf interval) _ hr1 hallow hgetid hsrc hk rfl
      have hms := updateExisting_split c s0 [] r (idv.getD r.id) q refm
        (c.inputFilter idv r.key (some r.neigh) (c.ifOf r.neigh)) (holdTimeOf interval) hr1
      have h3 := hms.net henv hupd (hma.inv hi1) h2.1
      exact ⟨h3.1, (h1.2.trans h2.2).trans h3.2⟩

theorem NInv.init (now : Timeval) (q : UInt16) (ifs : List Iface) (nc : NeighId → Nat)
    (rnd : Nat → Nat) (kr : Nat → KRes) (h1 : ∀ n, 1 ≤ nc n) (h2 : ∀ i, kr i ≠ .fail) :
    NInv c sk b Lo (St.init now q ifs nc rnd kr) :=
  ⟨fun d f h => by simp [srcv, findSource, St.init] at h, fun r hr => by simp [St.init] at hr, h1, h2,
   fun _ i q m h => by simp [St.init] at h⟩

theorem NInv.mono {Lo' : NeighId → Nat → Prop} (hl : ∀ n v, Lo n v → Lo' n v) {s : St} (h : NInv c sk b Lo s) :
    NInv c sk b Lo' s := by
  refine ⟨h.src, fun r hr => ?_, h.ncost, h.kres, h.out⟩
  have := h.routes r hr
  exact ⟨this.cost, this.fam, fun h1 h2 => ⟨(this.pair h1 h2).1, hl _ _ (this.pair h1 h2).2⟩, fun h1 h2 h3 => by
    obtain ⟨f, v, h4, h5, h6⟩ := this.edge h1 h2 h3
    exact ⟨f, v, h4, hl _ _ h5, h6⟩⟩

end

/-! ### The network -/

section
variable {Node : Type} [DecidableEq Node]

/-- The neighbour has at most the rank `v`. -/
def NetLo (N : Net Node) (sk : SKey) (b : UInt16) (S : Node → St) (a : Node) (n : NeighId) (v : Nat) : Prop :=
  (N.cfg (N.peer a n)).myid = sk.id ∨ ∃ f, fdr b (S (N.peer a n)) sk = some f ∧ f ≤ v

def NetInv (N : Net Node) (sk : SKey) (b : UInt16) (S : Node → St) : Prop :=
  ∀ a, Inv (N.cfg a) (S a) [] ∧ NInv (N.cfg a) sk b (NetLo N sk b S a) (S a)

/-- One event at one node. -/
theorem node_net {N : Net Node} {o : Bytes} {k : PKey} {b : UInt16} {S : Node → St}
    (h : NetInv N ⟨o, k⟩ b S) (a : Node) (ev : Ev) (hg : Genuine N o k b S a ev) (hx : NoRevival o k S a ev) :
    NInv (N.cfg a) ⟨o, k⟩ b (NetLo N ⟨o, k⟩ b S a) (step (N.cfg a) (S a) ev) ∧
    FdLe b ⟨o, k⟩ (S a) (step (N.cfg a) (S a) ev) := by
  obtain ⟨hi, hn⟩ := h a
  have other : ¬ (allowEv ev).env → (∀ n id k q m, ¬ (allowEv ev).upd n id k q m) →
      NInv (N.cfg a) ⟨o, k⟩ b (NetLo N ⟨o, k⟩ b S a) (step (N.cfg a) (S a) ev) ∧
      FdLe b ⟨o, k⟩ (S a) (step (N.cfg a) (S a) ev) :=
    fun h1 h2 => (run_ms (N.cfg a) hi ev).net h1 h2 hi hn
  cases ev with
  | update id k' q refm i n nh =>
    refine update_net hi hn id k' q refm i n nh ?_ ?_
    · intro h1 h2
      obtain ⟨h3, h4⟩ := hg h1 h2
      refine ⟨h3, fun hm => ?_⟩
      obtain ⟨j, hj⟩ := h4 hm
      unfold NetLo
      by_cases hid : (N.cfg (N.peer a n)).myid = o
      · exact .inl hid
      · exact .inr ((h (N.peer a n)).2.out (fun e => hid e.symm) j q refm hj hm).2
    · intro h1 h2 hm r hr h3 h4 h5 h6 h7
      exact updateFeasible_iff.2 (hx h1 h2 hm ⟨r, hr, by rw [h3, h2], h4, h5, h6, h7⟩)
  | tick t =>
    have e : srcv (step (N.cfg a) (S a) (.tick t)) ⟨o, k⟩ = srcv (S a) ⟨o, k⟩ := by
      cases hs : findSource (S a) ⟨o, k⟩ with
      | none =>
        have : findSource (step (N.cfg a) (S a) (.tick t)) ⟨o, k⟩ = none := hs
        unfold srcv; rw [hs, this]; rfl
      | some x =>
        have e0 : srcv (S a) ⟨o, k⟩ = some (distOf x, decide ((S a).now.sec - 200 ≤ x.time)) := by
          unfold srcv; rw [hs]; rfl
        have hfr := of_decide_eq_true (hn.src _ _ e0).2.2
        have hm := findSource_key hs
        have hfr2 := hg x hm.2 hm.1
        have : findSource (step (N.cfg a) (S a) (.tick t)) ⟨o, k⟩ = some x := hs
        unfold srcv; rw [hs, this]
        simp only [Option.map_some]
        have e1 : (step (N.cfg a) (S a) (.tick t)).now = t := rfl
        rw [e1, decide_eq_true hfr, decide_eq_true hfr2]
    exact ⟨hn.same e rfl (KSub.of_eq rfl).sub (fun _ _ _ h => .inr h) hn.routes, FdLe.of_eq e⟩
  | setCost n v =>
    refine ⟨⟨hn.src, hn.routes, ?_, hn.kres, hn.out⟩, FdLe.of_eq rfl⟩
    intro m
    show 1 ≤ (if m = n then v else (S a).ncost m)
    split
    · exact hg
    · exact hn.ncost m
  | _ => exact other (fun h => h) (fun _ _ _ _ _ h => h)

theorem NetInv.step {N : Net Node} {o : Bytes} {k : PKey} {b : UInt16} {S : Node → St}
    (h : NetInv N ⟨o, k⟩ b S) (a : Node) (ev : Ev) (hg : Genuine N o k b S a ev) (hx : NoRevival o k S a ev) :
    NetInv N ⟨o, k⟩ b (N.step S a ev) := by
  obtain ⟨h1, h2⟩ := node_net h a ev hg hx
  have hle : ∀ x, FdLe b ⟨o, k⟩ (S x) (N.step S a ev x) := by
    intro x
    unfold Net.step
    split
    · next e => subst e; exact h2
    · exact FdLe.refl _ _ _
  have hlo : ∀ x n v, NetLo N ⟨o, k⟩ b S x n v → NetLo N ⟨o, k⟩ b (N.step S a ev) x n v := by
    intro x n v h3
    rcases h3 with h3 | ⟨f, h3, h4⟩
    · exact .inl h3
    · obtain ⟨f', h5, h6⟩ := hle _ f h3
      exact .inr ⟨f', h5, Nat.le_trans h6 h4⟩
  intro x
  by_cases e : x = a
  · subst e
    have es : N.step S x ev x = Babel.step (N.cfg x) (S x) ev := by unfold Net.step; rw [if_pos rfl]
    rw [es]
    exact ⟨(h x).1.step ev, h1.mono (hlo x)⟩
  · have es : N.step S a ev x = S x := by unfold Net.step; rw [if_neg e]
    rw [es]
    exact ⟨(h x).1, (h x).2.mono (hlo x)⟩

theorem Spec.NetReachable.inv {N : Net Node} {o : Bytes} {k : PKey} {b : UInt16} {S : Node → St}
    (h : NetReachable N o k b (NoRevival o k) S) : NetInv N ⟨o, k⟩ b S := by
  induction h with
  | init now q ifs nc rand kres h1 h2 => exact fun a => ⟨Inv.init .., NInv.init _ _ _ _ _ _ (h1 a) (h2 a)⟩
  | step a ev _ hg hx ih => exact ih.step a ev hg hx

/-- Along an edge the rank decreases. -/
theorem NetInv.edge {N : Net Node} {o : Bytes} {k : PKey} {b : UInt16} {S : Node → St}
    (h : NetInv N ⟨o, k⟩ b S) {a d : Node} (hf : Forwards N o k S a d) :
    (N.cfg a).myid ≠ o ∧ ∃ f, fdr b (S a) ⟨o, k⟩ = some f ∧
      ((N.cfg d).myid = o ∨ ∃ g, fdr b (S d) ⟨o, k⟩ = some g ∧ g < f) := by
  obtain ⟨r, hr, h1, h2, h3, h4, h5⟩ := hf
  refine ⟨fun e => ((h a).1.lst.ok r hr).1 (by rw [h2, e]), ?_⟩
  have href : r.refmetric < INFINITY := by unfold routeMetric at h4; omega
  obtain ⟨f, v, h6, h7, h8⟩ := ((h a).2.routes r hr).edge (by unfold Route.skey; rw [h1, h2]) h3 href
  refine ⟨f, h6, ?_⟩
  unfold NetLo at h7
  rw [h5] at h7
  rcases h7 with h7 | ⟨g, h7, h9⟩
  · exact .inl h7
  · exact .inr ⟨g, h7, by omega⟩

theorem NetInv.hops {N : Net Node} {o : Bytes} {k : PKey} {b : UInt16} {S : Node → St}
    (h : NetInv N ⟨o, k⟩ b S) {a d : Node} (hp : Hops N o k S a d) :
    (N.cfg a).myid ≠ o ∧ ∃ f, fdr b (S a) ⟨o, k⟩ = some f ∧
      ((N.cfg d).myid = o ∨ ∃ g, fdr b (S d) ⟨o, k⟩ = some g ∧ g < f) := by
  induction hp with
  | one hf => exact h.edge hf
  | more hf _ ih =>
    obtain ⟨h1, f, h2, h3⟩ := h.edge hf
    obtain ⟨h4, g, h5, h6⟩ := ih
    refine ⟨h1, f, h2, ?_⟩
    rcases h3 with h3 | ⟨g', h7, h8⟩
    · exact absurd h3 h4
    · rw [h5] at h7; cases h7
      rcases h6 with h6 | ⟨u, h9, h10⟩
      · exact .inl h6
      · exact .inr ⟨u, h9, by omega⟩

end

end Babel
