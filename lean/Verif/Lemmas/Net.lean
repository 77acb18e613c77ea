import Verif.Lemmas.Outs
import Verif.Lemmas.Keep
import Verif.Lemmas.Fib
/-
An invariant of one node that implies the absence of loops in a network: the distances a node
remembers, holds and announces, in one half-window of sequence numbers.
-/
set_option linter.unusedSimpArgs false
set_option linter.unusedVariables false
set_option linter.unusedSectionVars false
namespace Babel
open Spec

/-! ### Ranks -/

/-- In the half-window starting at `b`. -/
def Win (b q : UInt16) : Prop := (q - b).toNat < 32768

/-- Smaller is better. -/
def rank (b : UInt16) (d : Dist) : Nat := (32767 - (d.1 - b).toNat) * 65536 + d.2

theorem win_newer {b q x : UInt16} (hq : Win b q) (hx : Win b x) (h : NewerEq q x) :
    (x - b).toNat < (q - b).toNat := by
  unfold Win NewerEq at *
  have h1 := q.toNat_lt
  have h2 := x.toNat_lt
  have h3 := b.toNat_lt
  rw [UInt16.toNat_sub] at *
  rw [UInt16.toNat_sub] at *
  omega

theorem rank_newer {b q x : UInt16} {m y : Nat} (hq : Win b q) (hx : Win b x) (h : NewerEq q x)
    (hm : m ≤ INFINITY) : rank b (q, m) < rank b (x, y) := by
  have := win_newer hq hx h
  unfold rank
  unfold Win at hq hx
  simp only
  unfold INFINITY at hm
  omega

theorem rank_metric {b q : UInt16} {m y : Nat} (h : m < y) : rank b (q, m) < rank b (q, y) := by
  unfold rank; simp only; omega

theorem rank_metric_le {b q : UInt16} {m y : Nat} (h : m ≤ y) : rank b (q, m) ≤ rank b (q, y) := by
  unfold rank; simp only; omega

/-- Two sequence numbers of a half-window are equal or one of them is newer. -/
theorem win_total {b q x : UInt16} (hq : Win b q) (hx : Win b x) (h1 : q ≠ x) (h2 : ¬ Newer q x) :
    NewerEq x q := by
  unfold Win Newer NewerEq at *
  have h3 := q.toNat_lt
  have h4 := x.toNat_lt
  have h5 := b.toNat_lt
  have hne : q.toNat ≠ x.toNat := fun h => h1 (UInt16.toNat_inj.1 h)
  rw [UInt16.toNat_sub] at *
  omega

/-! ### The invariant -/

/-- The remembered distance of a source and whether it is fresh. -/
def srcv (s : St) (sk : SKey) : Option (Dist × Bool) :=
  (findSource s sk).map (fun x => (distOf x, decide (s.now.sec - 200 ≤ x.time)))

/-- The rank of the remembered distance. -/
def fdr (b : UInt16) (s : St) (sk : SKey) : Option Nat := (srcv s sk).map (fun p => rank b p.1)

/-- What holds of a route; `Lo n v` means that the remembered distance of the neighbour `n` has at
most the rank `v`. -/
structure RouteOk (c : Cfg) (sk : SKey) (b : UInt16) (Lo : NeighId → Nat → Prop) (fd : Option Nat)
    (r : Route) : Prop where
  cost : 1 ≤ r.cost
  fam : r.installed = true → familyOk r.key r.nexthop = true ∧ srcUnsupported c r.key = false
  pair : r.skey = sk → r.refmetric < INFINITY → Win b r.seqno ∧ Lo r.neigh (rank b (r.seqno, r.refmetric))
  edge : r.skey = sk → r.installed = true → r.refmetric < INFINITY →
    ∃ f v, fd = some f ∧ Lo r.neigh v ∧ v < f

/-- What holds of a node. -/
structure NInv (c : Cfg) (sk : SKey) (b : UInt16) (Lo : NeighId → Nat → Prop) (s : St) : Prop where
  src : ∀ d f, srcv s sk = some (d, f) → Win b d.1 ∧ d.2 ≤ INFINITY ∧ f = true
  routes : ∀ r ∈ s.routes, RouteOk c sk b Lo (fdr b s sk) r
  ncost : ∀ n, 1 ≤ s.ncost n
  kres : ∀ i, s.kres i ≠ .fail
  out : sk.id ≠ c.myid → ∀ i q m, Out.update i sk.id sk.key q m ∈ s.out → m < INFINITY →
    Win b q ∧ ∃ f, fdr b s sk = some f ∧ f ≤ rank b (q, m)

/-- The remembered distance got better or stayed. -/
def FdLe (b : UInt16) (sk : SKey) (s s' : St) : Prop :=
  ∀ f, fdr b s sk = some f → ∃ f', fdr b s' sk = some f' ∧ f' ≤ f

theorem FdLe.refl (b : UInt16) (sk : SKey) (s : St) : FdLe b sk s s := fun f h => ⟨f, h, Nat.le_refl _⟩

theorem FdLe.trans {b : UInt16} {sk : SKey} {s t u : St} (h : FdLe b sk s t) (g : FdLe b sk t u) :
    FdLe b sk s u := by
  intro f hf
  obtain ⟨f1, h1, h2⟩ := h f hf
  obtain ⟨f2, h3, h4⟩ := g f1 h1
  exact ⟨f2, h3, Nat.le_trans h4 h2⟩

theorem FdLe.of_eq {b : UInt16} {sk : SKey} {s s' : St} (h : srcv s' sk = srcv s sk) : FdLe b sk s s' := by
  intro f hf
  refine ⟨f, ?_, Nat.le_refl _⟩
  unfold fdr at hf ⊢
  rw [h]; exact hf

section
variable {c : Cfg} {sk : SKey} {b : UInt16} {Lo : NeighId → Nat → Prop}

theorem RouteOk.core {fd : Option Nat} {r r' : Route} (h : RouteOk c sk b Lo fd r) (e : r'.core = r.core) :
    RouteOk c sk b Lo fd r' := by
  have hc : r'.cost = r.cost := by have := congrArg Route.cost e; exact this
  have hn : r'.nexthop = r.nexthop := by have := congrArg Route.nexthop e; exact this
  constructor
  · rw [hc]; exact h.cost
  · rw [core_installed e, core_key e, hn]; exact h.fam
  · rw [core_skey e, core_refmetric e, core_seqno e, core_neigh e]; exact h.pair
  · rw [core_skey e, core_refmetric e, core_installed e, core_neigh e]; exact h.edge

theorem RouteOk.off {fd : Option Nat} {r : Route} (h : RouteOk c sk b Lo fd r) :
    RouteOk c sk b Lo fd { r with installed := false } :=
  ⟨h.cost, fun e => absurd e (by simp), h.pair, fun _ e => absurd e (by simp)⟩

/-- The remembered distance does not change. -/
theorem NInv.same {s s' : St} (h : NInv c sk b Lo s) (hs : srcv s' sk = srcv s sk)
    (hn : s'.ncost = s.ncost) (hk : ∀ i, ∃ j, s'.kres i = s.kres j)
    (ho : ∀ i q m, Out.update i sk.id sk.key q m ∈ s'.out → sk.id = c.myid ∨ Out.update i sk.id sk.key q m ∈ s.out)
    (hr : ∀ r ∈ s'.routes, RouteOk c sk b Lo (fdr b s sk) r) : NInv c sk b Lo s' := by
  have hf : fdr b s' sk = fdr b s sk := by unfold fdr; rw [hs]
  refine ⟨?_, ?_, ?_, ?_, ?_⟩
  · rw [hs]; exact h.src
  · rw [hf]; exact hr
  · rw [hn]; exact h.ncost
  · intro i; obtain ⟨j, e⟩ := hk i; rw [e]; exact h.kres j
  · intro hid i q m h1 h2
    rw [hf]
    rcases ho i q m h1 with h3 | h3
    · exact absurd h3 hid
    · exact h.out hid i q m h3 h2

theorem srcv_keep {s s' : St} (hn : s'.now = s.now) (hs : s'.sources = s.sources) : srcv s' sk = srcv s sk := by
  unfold srcv findSource; rw [hn, hs]

theorem srcv_mod {s s' : St} {k : SKey} {f : Source → Source} (hn : s'.now = s.now)
    (hs : s'.sources = (modSource s k f).sources)
    (hf : ∀ x, (f x).skey = x.skey ∧ distOf (f x) = distOf x ∧ (f x).time = x.time) :
    srcv s' sk = srcv s sk := by
  have e : findSource s' sk = findSource (modSource s k f) sk := by unfold findSource; rw [hs]
  unfold srcv
  rw [e, findSource_mod _ _ _ _ (fun x => (hf x).1), hn]
  cases findSource s sk with
  | none => rfl
  | some x =>
    simp only [Option.map_some]
    split
    · rw [(hf x).2.1, (hf x).2.2]
    · rfl

/-! ### The kernel -/

/-- The remaining answers of the kernel are among the earlier ones. -/
structure KSub (s s' : St) : Prop where
  sub : ∀ i, ∃ j, s'.kres i = s.kres j

theorem KSub.refl (s : St) : KSub s s := ⟨fun i => ⟨i, rfl⟩⟩
theorem KSub.of_eq {s s' : St} (h : s'.kres = s.kres) : KSub s s' := ⟨fun i => ⟨i, by rw [h]⟩⟩
theorem KSub.trans {s t u : St} (h : KSub s t) (g : KSub t u) : KSub s u := by
  constructor
  intro i
  obtain ⟨j, e⟩ := g.sub i
  obtain ⟨k, e'⟩ := h.sub j
  exact ⟨k, e.trans e'⟩

theorem ksub_add (c : Cfg) (s : St) (t : Nat) (k : PKey) (g : Bytes) (i : IfId) (m : Nat) :
    KSub s (kernelAdd c s t k g i m).2 := by
  unfold kernelAdd
  split
  · exact .refl s
  · split
    · exact .refl s
    · simp only
      split <;> exact ⟨fun i => ⟨i + 1, rfl⟩⟩

theorem ksub_flush (c : Cfg) (s : St) (t : Nat) (k : PKey) (g : Bytes) (i : IfId) (m : Nat) :
    KSub s (kernelFlush c s t k g i m).2 := by
  unfold kernelFlush
  split
  · exact .refl s
  · split
    · exact .refl s
    · simp only
      split <;> exact ⟨fun i => ⟨i + 1, rfl⟩⟩

theorem ksub_modify (c : Cfg) (s : St) (t : Nat) (k : PKey) (g : Bytes) (i : IfId) (m : Nat)
    (g' : Bytes) (i' : IfId) (m' : Nat) : KSub s (kernelModify c s t k g i m g' i' m').2 := by
  unfold kernelModify
  split
  · exact .refl s
  · split
    · exact .refl s
    · exact KSub.trans (ksub_flush c s t k g i m) (ksub_add c _ t k g' i' m')

theorem ksub_changeAdd (c : Cfg) (s : St) (r : Route) (m : Nat) : KSub s (changeAdd c s r m).2 := by
  unfold changeAdd
  split
  · exact .refl s
  · exact ksub_add c s _ _ _ _ _

theorem kernelAdd_notFail {c : Cfg} {s : St} (hk : ∀ i, s.kres i ≠ .fail) (t : Nat) {k : PKey} {g : Bytes}
    (i : IfId) (m : Nat) (h1 : familyOk k g = true) (h2 : srcUnsupported c k = false) :
    (kernelAdd c s t k g i m).1 ≠ .fail := by
  unfold kernelAdd
  rw [if_neg (by simp [h1, h2])]
  split
  · simp
  · simp only
    have e : (popK s).1 = s.kres 0 := rfl
    split
    · simp
    · show (popK s).1 ≠ _
      rw [e]; exact hk 0

theorem kernelAdd_fam {c : Cfg} {s : St} {t : Nat} {k : PKey} {g : Bytes}
    {i : IfId} {m : Nat} (h : (kernelAdd c s t k g i m).1 ≠ .fail) :
    familyOk k g = true ∧ srcUnsupported c k = false := by
  unfold kernelAdd at h
  split at h
  · simp at h
  · next hc => simpa using hc

theorem changeAdd_fam {c : Cfg} {s : St} {r : Route} {m : Nat} (h : (changeAdd c s r m).1 ≠ .fail) :
    familyOk r.key r.nexthop = true ∧ srcUnsupported c r.key = false := by
  unfold changeAdd at h
  split at h
  · simp at h
  · exact kernelAdd_fam h

/-- Changing the metric of a route that is in the kernel succeeds. -/
theorem kernelModify_true {c : Cfg} {s : St} (hk : ∀ i, s.kres i ≠ .fail) (t : Nat) {k : PKey} {g : Bytes}
    (i : IfId) (m : Nat) (i' : IfId) (m' : Nat) (h1 : familyOk k g = true) (h2 : srcUnsupported c k = false) :
    (kernelModify c s t k g i m g i' m').1 = true := by
  unfold kernelModify
  rw [if_neg (by simp [h1])]
  split
  · rfl
  · simp only [decide_eq_true_eq]
    refine kernelAdd_notFail ?_ _ _ _ h1 h2
    intro j
    obtain ⟨j', e⟩ := (ksub_flush c s t k g i m).sub j
    rw [e]; exact hk j'

theorem kernelModify_fam {c : Cfg} {s : St} {t : Nat} {k : PKey} {g g' : Bytes}
    {i i' : IfId} {m m' : Nat} (h : (kernelModify c s t k g i m g' i' m').1 = true)
    (h1 : familyOk k g = true) (h2 : srcUnsupported c k = false) :
    familyOk k g' = true ∧ srcUnsupported c k = false := by
  unfold kernelModify at h
  rw [if_neg (by simp [h1])] at h
  split at h
  · next hc => rw [hc.2.1]; exact ⟨h1, h2⟩
  · simp only [decide_eq_true_eq] at h
    exact kernelAdd_fam h

/-! ### Metric changes -/

/-- The routes after a metric change which the kernel accepts. -/
theorem metric_routes {s : St} (hkr : ∀ i, s.kres i ≠ .fail)
    (hfm : ∀ r ∈ s.routes, r.installed = true → familyOk r.key r.nexthop = true ∧ srcUnsupported c r.key = false)
    (k : PKey) (n : NeighId) (refm cost add : Nat) :
    (changeRouteMetric c s k n refm cost add).routes.map Route.core =
      (flatModify s.routes k n (setRc refm cost add)).map Route.core := by
  cases hr : findRoute s k n with
  | none =>
    rw [changeRouteMetric_noop _ _ _ hr]
    congr 1
    have h0 := flatFind_none.1 (show flatFind s.routes k n = none from hr)
    unfold flatModify
    refine (Eq.trans (List.map_congr_left (g := id) ?_) (List.map_id _)).symm
    intro r hm
    rw [if_neg]
    · rfl
    · intro hc
      have := h0 r hm
      simp_all
  | some r =>
    rcases changeRouteMetric_routes (c := c) refm cost add hr with ⟨hi, e⟩ | e
    · -- the kernel did not refuse
      rcases changeRouteMetric_cases (c := c) refm cost add hr with ⟨_, hf, _⟩ | ⟨s1, h1, e1⟩
      · exfalso
        have hfam := hfm r (findRoute_mem hr).1 hi
        have := kernelModify_true hkr (routeTable c r) (c.ifOf r.neigh) (metricToKernel c (routeMetric r))
          (c.ifOf r.neigh) (metricToKernel c (min (refm + cost + add) INFINITY)) hfam.1 hfam.2
        unfold changeModify at hf
        rw [this] at hf
        simp at hf
      · have h2 : s1.routes = s.routes := by
          rcases h1 with ⟨-, -, h1⟩ | ⟨-, h1⟩
          · have := (konly_changeModify c s r (metricToKernel c (routeMetric r)) r.nexthop (c.ifOf r.neigh)
              (metricToKernel c (min (refm + cost + add) INFINITY))).routes
            rw [h1] at this; exact this
          · rw [h1]
        rw [e1, notifyRoute_routes]
        show (flatModify (smoothRoute c s1 k n).2.routes k n _).map Route.core = _
        have hs := (frame_smooth c s1 k n).routes
        rw [h2] at hs
        exact core_modify hs (fun r => setMetric_core ..) (fun r => rfl)
    · exact e

theorem Notes.upd {s s' : St} (h : Notes s s') {i : IfId} {id : Bytes} {k : PKey} {q : UInt16} {m : Nat}
    (ho : Out.update i id k q m ∈ s'.out) : Out.update i id k q m ∈ s.out := by
  obtain ⟨new, e, hn⟩ := h
  rw [e] at ho
  rcases List.mem_append.1 ho with h1 | h1
  · have := (hn _ h1).1
    simp [Out.note] at this
  · exact h1

/-- Only the routes and notifications change. -/
theorem NInv.local {s s' : St} (h : NInv c sk b Lo s) (hk : Keep s s') (hr : KSub s s') (hn : Notes s s')
    (ho : ∀ r ∈ s'.routes, RouteOk c sk b Lo (fdr b s sk) r) :
    NInv c sk b Lo s' ∧ FdLe b sk s s' :=
  ⟨h.same (srcv_keep hk.now hk.sources) hk.ncost hr.sub (fun _ _ _ h => .inr (hn.upd h)) ho,
    .of_eq (srcv_keep hk.now hk.sources)⟩

theorem notifyRoute_ksub (s : St) (kd : NKind) (k : PKey) (n : NeighId) : KSub s (notifyRoute s kd k n) :=
  .of_eq (notifyRoute_kres ..)

theorem ksub_modRoute (s : St) (k : PKey) (n : NeighId) (f : Route → Route) : KSub s (modRoute s k n f) :=
  .of_eq rfl

theorem ksub_uninstall (c : Cfg) (s : St) (k : PKey) (n : NeighId) : KSub s (uninstallRoute c s k n) := by
  cases h : findRoute s k n with
  | none => rw [uninstallRoute_noop (by simp [h])]; exact .refl s
  | some r =>
    cases hi : r.installed with
    | false => rw [uninstallRoute_noop (by rw [h]; simp [hi])]; exact .refl s
    | true =>
      rw [uninstallRoute_eq h hi]
      simp only
      have hk : KSub s (changeFlush c (modRoute s k n (fun r => { r with installed := false })) r
          (metricToKernel c (routeMetric r))).2 :=
        (ksub_modRoute s k n (fun r => { r with installed := false })).trans (ksub_flush _ _ _ _ _ _ _)
      split
      · exact hk.trans (notifyRoute_ksub ..)
      · exact hk

theorem ksub_metric (c : Cfg) (s : St) (k : PKey) (n : NeighId) (refm cost add : Nat) :
    KSub s (changeRouteMetric c s k n refm cost add) := by
  cases h : findRoute s k n with
  | none => rw [changeRouteMetric_noop _ _ _ h]; exact .refl s
  | some r =>
    rcases changeRouteMetric_cases (c := c) refm cost add h with ⟨_, _, e⟩ | ⟨s1, h1, e⟩ <;> rw [e]
    · exact ksub_modify _ _ _ _ _ _ _ _ _ _
    · have hs1 : KSub s s1 := by
        rcases h1 with ⟨_, _, e1⟩ | ⟨_, e1⟩
        · have := ksub_modify c s (routeTable c r) r.key r.nexthop (c.ifOf r.neigh)
            (metricToKernel c (routeMetric r)) r.nexthop (c.ifOf r.neigh)
            (metricToKernel c (min (refm + cost + add) INFINITY))
          unfold changeModify at e1
          rw [e1] at this; exact this
        · rw [e1]; exact .refl s
      have hs2 : KSub s1 (smoothRoute c s1 k n).2 := .of_eq (frame_smooth c s1 k n).kres
      exact hs1.trans (hs2.trans ((ksub_modRoute ..).trans (notifyRoute_ksub ..)))

/-! ### Transitions -/

theorem NInv.metric {s : St} (h : NInv c sk b Lo s) (k : PKey) (n : NeighId) (refm cost add : Nat)
    (hc : 1 ≤ cost) (hm : INFINITY ≤ refm ∨ ∀ r ∈ s.routes, r.key = k → r.neigh = n → r.refmetric = refm) :
    NInv c sk b Lo (changeRouteMetric c s k n refm cost add) ∧
    FdLe b sk s (changeRouteMetric c s k n refm cost add) := by
  refine h.local (keep_metric ..) (ksub_metric ..) (notes_metric ..) ?_
  intro x hx
  obtain ⟨y, hy, e⟩ := mem_core (metric_routes h.kres (fun r hr => (h.routes r hr).fam) k n refm cost add) hx
  refine RouteOk.core ?_ e
  rcases mem_flatModify hy with ⟨r, h1, h2, h3, e1⟩ | ⟨h1, _⟩
  · have hr := h.routes r h1
    rw [e1]
    refine ⟨hc, hr.fam, fun h4 h5 => ?_, fun h4 h5 h6 => ?_⟩
    · rcases hm with hm | hm
      · exact absurd h5 (Nat.not_lt.2 hm)
      · have e2 := hm r h1 h2 h3
        have := hr.pair h4 (by rw [e2]; exact h5)
        rw [e2] at this
        exact this
    · rcases hm with hm | hm
      · exact absurd h6 (Nat.not_lt.2 hm)
      · have e2 := hm r h1 h2 h3
        exact hr.edge h4 h5 (by rw [e2]; exact h6)
  · exact h.routes y h1

theorem NInv.retract {s : St} (h : NInv c sk b Lo s) (k : PKey) (n : NeighId) :
    NInv c sk b Lo (retractRoute c s k n) ∧ FdLe b sk s (retractRoute c s k n) :=
  h.metric k n INFINITY INFINITY 0 (by unfold INFINITY; omega) (.inl (Nat.le_refl _))

/-- A feasible route has a smaller rank than the remembered distance. -/
theorem NInv.feasible {s : St} (h : NInv c sk b Lo s) {x : Source} (hx : findSource s sk = some x)
    {q : UInt16} {m : Nat} (hq : Win b q) (hm : m < INFINITY)
    (hf : updateFeasible s (some x) q m = true) :
    fdr b s sk = some (rank b (distOf x)) ∧ rank b (q, m) < rank b (distOf x) := by
  have e : srcv s sk = some (distOf x, decide (s.now.sec - 200 ≤ x.time)) := by
    unfold srcv; rw [hx]; rfl
  have h1 := h.src _ _ e
  refine ⟨by unfold fdr; rw [e]; rfl, ?_⟩
  rcases updateFeasible_iff.1 hf with h2 | h2 | h2 | h2
  · exact absurd hm (Nat.not_lt.2 h2)
  · have := of_decide_eq_true h1.2.2
    omega
  · exact rank_newer hq h1.1 h2 (Nat.le_of_lt hm)
  · show _ < rank b (x.seqno, x.metric)
    have e2 : q = x.seqno := h2.1
    rw [e2]
    exact rank_metric h2.2

/-- A feasible route may become the selected route. -/
theorem NInv.mark {s : St} (h : NInv c sk b Lo s) {r : Route} (hr : r ∈ s.routes)
    (hs : (findSource s r.skey).isSome) (hf : routeFeasible s r = true)
    (hfam : familyOk r.key r.nexthop = true ∧ srcUnsupported c r.key = false) :
    RouteOk c sk b Lo (fdr b s sk) { r with installed := true } := by
  have h1 := h.routes r hr
  refine ⟨h1.cost, fun _ => hfam, h1.pair, fun h2 _ h3 => ?_⟩
  have h2 : r.skey = sk := h2
  have hp := h1.pair h2 h3
  rw [h2] at hs
  cases hx : findSource s sk with
  | none => rw [hx] at hs; simp at hs
  | some x =>
    unfold routeFeasible at hf
    rw [h2, hx] at hf
    have := h.feasible hx hp.1 h3 hf
    exact ⟨_, _, this.1, hp.2, this.2⟩

theorem Inv.hasSource {s : St} {ex : List SKey} (h : Inv c s ex) {r : Route} (hr : r ∈ s.routes) :
    (findSource s r.skey).isSome = true := by
  have h1 : refs s.routes ex r.skey ≠ 0 := by
    unfold refs
    have : 0 < s.routes.countP (fun x => x.skey == r.skey) := List.countP_pos_iff.2 ⟨r, hr, by simp⟩
    omega
  obtain ⟨x, hx, e⟩ := h.src.has _ h1
  unfold findSource
  rw [List.find?_isSome]
  exact ⟨x, hx, by simp [e]⟩

theorem ksub_mark (s : St) (k : PKey) (n : NeighId) (o : Option Route) : KSub s (markInstalled s k n o) :=
  .of_eq rfl

theorem mem_mark {s : St} {k : PKey} {n : NeighId} {o : Option Route} {x : Route}
    (h : x ∈ (markInstalled s k n o).routes) : x ∈ s.routes ∨
    ∃ r ∈ s.routes, r.key = k ∧ r.neigh = n ∧ x = { r with installed := true } := by
  have h1 := mem_flatMove (show x ∈ flatMove (flatModify s.routes k n _) k n from h)
  rcases mem_flatModify h1 with ⟨r, h2, h3, h4, e⟩ | ⟨h2, _⟩
  · exact .inr ⟨r, h2, h3, h4, e⟩
  · exact .inl h2

theorem NInv.install {s : St} {ex : List SKey} (h : NInv c sk b Lo s) (hi : Inv c s ex) {k : PKey} {n : NeighId} {r : Route}
    (hr : findRoute s k n = some r) (h2 : r.installed = false) (h3 : routeFeasible s r = true)
    (h4 : routeMetric r < INFINITY → routeExpired s r = false) :
    NInv c sk b Lo (installRoute c s k n) ∧ FdLe b sk s (installRoute c s k n) := by
  have hk := keep_install c s k n hr h2 h3
  have hn := notes_install c s k n hr h2 h3 h4
  rcases installRoute_cases (c := c) hr h2 h3 with ⟨_, e⟩ | ⟨_, _, e⟩ | ⟨_, hf, e⟩
  · refine h.local hk ?_ hn ?_
    · rw [e]; exact .of_eq rfl
    · rw [e]; exact h.routes
  · refine h.local hk ?_ hn ?_
    · rw [e]; exact ksub_changeAdd ..
    · rw [e, (konly_changeAdd ..).routes]; exact h.routes
  · refine h.local hk ?_ hn ?_
    · rw [e]; exact (ksub_changeAdd ..).trans ((ksub_mark ..).trans (notifyRoute_ksub ..))
    · rw [e, notifyRoute_routes]
      intro x hx
      rcases mem_mark hx with h1 | ⟨r', h1, h5, h6, e1⟩
      · rw [(konly_changeAdd ..).routes] at h1
        exact h.routes x h1
      · rw [(konly_changeAdd ..).routes] at h1
        have e2 : r' = r := by
          have := findRoute_of_mem hi.lst h1
          rw [h5, h6, hr] at this
          exact (Option.some.inj this).symm
        rw [e1, e2]
        have hm := (findRoute_mem hr).1
        exact h.mark hm (hi.hasSource hm) h3 (changeAdd_fam hf)

theorem NInv.switch {s : St} {ex : List SKey} (h : NInv c sk b Lo s) (hi : Inv c s ex) {k : PKey} {n : NeighId} {o r : Route}
    (ho : findInstalled s k = some o) (hr : findRoute s k n = some r) (h2 : r.installed = false)
    (h3 : routeFeasible s r = true) (h4 : routeMetric r < INFINITY) (h5 : routeExpired s r = false)
    (h6 : INFINITY ≤ routeMetric o ∨ (routeMetric r ≤ routeMetric o ∧ r.smoothed < o.smoothed)) :
    NInv c sk b Lo (switchRoutes c s k o.neigh n) ∧ FdLe b sk s (switchRoutes c s k o.neigh n) := by
  obtain ⟨hm, hok, hoi⟩ := findInstalled_mem ho
  have hfo : findRoute s k o.neigh = some o := by rw [← hok]; exact findRoute_of_mem hi.lst hm
  have hk := keep_switch c s k o.neigh n hfo hr h3
  have hn := notes_switch c s k o.neigh n hfo hr h3 h2 h5 h4 h6
  have hks : KSub s (changeModify c s o (metricToKernel c (routeMetric o)) r.nexthop
      (c.ifOf r.neigh) (metricToKernel c (routeMetric r))).2 := ksub_modify ..
  have hro : (changeModify c s o (metricToKernel c (routeMetric o)) r.nexthop
      (c.ifOf r.neigh) (metricToKernel c (routeMetric r))).2.routes = s.routes := (konly_changeModify ..).routes
  rcases switchRoutes_cases (c := c) hfo hr h3 with ⟨_, e⟩ | ⟨_, _, e⟩ | ⟨_, hf, e⟩
  · rw [e]; exact ⟨h, FdLe.refl b sk s⟩
  · refine h.local hk ?_ hn ?_
    · rw [e]; exact hks
    · rw [e, hro]; exact h.routes
  · refine h.local hk ?_ hn ?_
    · rw [e]
      exact hks.trans ((ksub_modRoute ..).trans ((ksub_mark ..).trans
        ((notifyRoute_ksub ..).trans (notifyRoute_ksub ..))))
    · rw [e, notifyRoute_routes, notifyRoute_routes]
      intro x hx
      have key : ∀ y ∈ (modRoute (changeModify c s o (metricToKernel c (routeMetric o)) r.nexthop
          (c.ifOf r.neigh) (metricToKernel c (routeMetric r))).2 k o.neigh (fun r => { r with installed := false })).routes,
          y ∈ s.routes ∨ ∃ z ∈ s.routes, z.key = k ∧ z.neigh = o.neigh ∧ y = { z with installed := false } := by
        intro y hy
        rcases mem_flatModify hy with ⟨z, h7, h8, h9, e1⟩ | ⟨h7, _⟩
        · rw [hro] at h7; exact .inr ⟨z, h7, h8, h9, e1⟩
        · rw [hro] at h7; exact .inl h7
      rcases mem_mark hx with h1 | ⟨r', h1, h8, h9, e1⟩
      · rcases key x h1 with h7 | ⟨z, h7, _, _, e1⟩
        · exact h.routes x h7
        · rw [e1]; exact (h.routes z h7).off
      · have hmr := (findRoute_mem hr).1
        have hfam := (h.routes o hm).fam hoi
        have hok' : o.key = r.key := by rw [hok, (findRoute_mem hr).2.1]
        have hf' := kernelModify_fam hf hfam.1 hfam.2
        rw [hok'] at hf'
        have hmk := h.mark hmr (hi.hasSource hmr) h3 hf'
        have e2 : r' = r := by
          rcases key r' h1 with h7 | ⟨z, h7, h10, h11, e3⟩
          · have := findRoute_of_mem hi.lst h7
            rw [h8, h9, hr] at this
            exact (Option.some.inj this).symm
          · exfalso
            have : n = o.neigh := by rw [← h9, e3]; exact h11
            rw [this, hfo] at hr
            cases hr
            rw [hoi] at h2; simp at h2
        rw [e1, e2]
        exact hmk

theorem NInv.uninstall {s : St} (h : NInv c sk b Lo s) (k : PKey) (n : NeighId) :
    NInv c sk b Lo (uninstallRoute c s k n) ∧ FdLe b sk s (uninstallRoute c s k n) := by
  refine h.local (keep_uninstall ..) (ksub_uninstall ..) (notes_uninstall ..) ?_
  rcases uninstallRoute_routes c s k n with ⟨e, _⟩ | e <;> rw [e]
  · exact h.routes
  · intro x hx
    rcases mem_flatModify hx with ⟨r, h1, _, _, e1⟩ | ⟨h1, _⟩
    · rw [e1]; exact (h.routes r h1).off
    · exact h.routes x h1

/-- The sequence number of a route may change before it is retracted. -/
theorem NInv.expire {s : St} (h : NInv c sk b Lo s) (k : PKey) (n : NeighId) (q : UInt16) :
    NInv c sk b Lo (retractRoute c (modRoute s k n (fun r => { r with seqno := q })) k n) ∧
    FdLe b sk s (retractRoute c (modRoute s k n (fun r => { r with seqno := q })) k n) := by
  have hro : ∀ x ∈ (modRoute s k n (fun r => { r with seqno := q })).routes, x.installed = true →
      familyOk x.key x.nexthop = true ∧ srcUnsupported c x.key = false := by
    intro x hx
    rcases mem_flatModify hx with ⟨r, h1, _, _, e1⟩ | ⟨h1, _⟩
    · rw [e1]; exact (h.routes r h1).fam
    · exact (h.routes x h1).fam
  have hkr : ∀ i, (modRoute s k n (fun r => { r with seqno := q })).kres i ≠ .fail := h.kres
  unfold retractRoute
  refine h.local ((keep_modRoute ..).trans (keep_metric ..)) ((ksub_modRoute ..).trans (ksub_metric ..))
    ((Notes.eq (s' := modRoute s k n (fun r => { r with seqno := q })) rfl).trans (notes_metric ..)) ?_
  intro x hx
  obtain ⟨y, hy, e⟩ := mem_core (metric_routes hkr hro k n INFINITY INFINITY 0) hx
  refine RouteOk.core ?_ e
  rcases mem_flatModify hy with ⟨r, h1, h2, h3, e1⟩ | ⟨h1, h2⟩
  · rw [e1]
    refine ⟨by show 1 ≤ INFINITY; unfold INFINITY; omega, hro r h1, fun _ h5 => ?_, fun _ _ h5 => ?_⟩
    · exact absurd h5 (Nat.lt_irrefl _)
    · exact absurd h5 (Nat.lt_irrefl _)
  · rcases mem_flatModify h1 with ⟨r, h4, h5, h6, e1⟩ | ⟨h4, _⟩
    · exact absurd (by rw [e1]; exact ⟨h5, h6⟩) h2
    · exact h.routes y h4

end

end Babel
