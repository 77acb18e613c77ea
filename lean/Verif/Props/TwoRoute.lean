import Verif.Lemmas.TwoRoute
/-
C75: routes only go over links that have worked in both directions.
-/
namespace Babel
open Spec

section
variable {Node : Type} [DecidableEq Node] {N : DNet Node} {X : Node → PKey → Prop}

/-- A route with a finite metric goes over a link that has worked in both directions, and its metric is at least that of the
neighbour plus a cost of receiving from this router that the neighbour has had. -/
theorem C75_route (hN : DNetOk N X) (hA : ∀ a n, ((N.cfg a).addr n).length = 16) (hC : ∀ a i, ((N.cfg a).ifs i).cost ≤ INFINITY)
    (hU : ∀ a b m i, (N.cfg b).addr m ∈ ((N.cfg a).ifs i).ll → N.peer b m = a) {T : Node → Talk} {H : List (Node → Talk)}
    (h : History N X (T :: H)) (h0 : ∀ T0, (T :: H).getLast? = some T0 → ∀ a n, (T0 a).d.st.ncost n = INFINITY) {a b : Node} {r : Route}
    (hr : r ∈ (T a).d.st.routes) (hb : N.peer a r.neigh = b) (hm : routeMetric r < INFINITY) :
    ∃ c, HasWorked N H a b r.neigh c ∧ r.refmetric + c + r.addMetric = routeMetric r := by
  subst hb
  have g := history_link ⟨hN, hA, hC, hU⟩ h rfl h0 a
  unfold routeMetric at hm ⊢
  exact ⟨r.cost, g.costs.routes r hr (by omega), by omega⟩

/-- So does what is known about the cost of a link, even when no route uses it. -/
theorem C75_cost (hN : DNetOk N X) (hA : ∀ a n, ((N.cfg a).addr n).length = 16) (hC : ∀ a i, ((N.cfg a).ifs i).cost ≤ INFINITY)
    (hU : ∀ a b m i, (N.cfg b).addr m ∈ ((N.cfg a).ifs i).ll → N.peer b m = a) {T : Node → Talk} {H : List (Node → Talk)}
    (h : History N X (T :: H)) (h0 : ∀ T0, (T :: H).getLast? = some T0 → ∀ a n, (T0 a).d.st.ncost n = INFINITY) {a b : Node} {n : NeighId}
    (hb : N.peer a n = b) (hm : (T a).d.st.ncost n < INFINITY) : HasWorked N H a b n ((T a).d.st.ncost n) := by
  subst hb
  exact (history_link ⟨hN, hA, hC, hU⟩ h rfl h0 a).costs.ncost n hm

/-- A router that has sent no hello is not used by anyone. -/
theorem C75_silent (hN : DNetOk N X) (hA : ∀ a n, ((N.cfg a).addr n).length = 16) (hC : ∀ a i, ((N.cfg a).ifs i).cost ≤ INFINITY)
    (hU : ∀ a b m i, (N.cfg b).addr m ∈ ((N.cfg a).ifs i).ll → N.peer b m = a) {T : Node → Talk} {H : List (Node → Talk)}
    (h : History N X (T :: H)) (h0 : ∀ T0, (T :: H).getLast? = some T0 → ∀ a n, (T0 a).d.st.ncost n = INFINITY) {b : Node}
    (hs : ∀ T' ∈ H, ∀ E u, ¬ HasSaidHello T' b E u) :
    ∀ a, ∀ r ∈ (T a).d.st.routes, N.peer a r.neigh = b ∨ a = b → routeMetric r = INFINITY := by
  intro a r hr hab
  have hle : routeMetric r ≤ INFINITY := Nat.min_le_right ..
  by_cases hm : routeMetric r < INFINITY
  · obtain ⟨c, ⟨⟨T1, h1, u, h2⟩, T2, H2, m, y, h3, _, _, _, _, T3, h4, u', h5⟩, _⟩ := C75_route hN hA hC hU h h0 hr rfl hm
    rcases hab with rfl | rfl
    · exact absurd h2 (hs T1 h1 _ _)
    · exact absurd h5 (hs T3 (h3.subset (List.mem_cons_of_mem _ h4)) _ _)
  · omega

end

theorem DDemo.run_last : ∀ (l : List DDemo.Act) {s s' : DDemo.Both} {L L' : List DDemo.Both}, s.run L l = some (s', L') → (s' :: L').getLast? = (s :: L).getLast? := by
  intro l
  induction l with
  | nil => intro s s' L L' h; cases h; rfl
  | cons x l ih =>
    intro s s' L L' h
    unfold DDemo.Both.run at h
    split at h
    · simp only [Option.bind_eq_bind] at h
      obtain ⟨⟨a, ev⟩, e1, h⟩ := Option.bind_eq_some_iff.1 h
      obtain ⟨t, e2, h⟩ := Option.bind_eq_some_iff.1 h
      rw [ih h, List.getLast?_cons_cons]
    · cases h

open DDemo in
/-- Two routers that meet the assumptions (`pairOk`); one of them has a route through the other. -/
example : ∃ T H r, History pair (fun _ k => k = Demo.key 1) (T :: H) ∧ (∀ T0, (T :: H).getLast? = some T0 → ∀ a n, (T0 a).d.st.ncost n = INFINITY) ∧
    r ∈ (T false).d.st.routes ∧ pair.peer false r.neigh = true ∧ routeMetric r = 96 ∧ r.installed = true := by
  have h : (Both.run ⟨talk, talk⟩ [] (acts ++ [.route true, .tell true, .flush true, .relay false 3])).any (fun r =>
      r.1.f.d.st.routes.any fun x => routeMetric x == 96 && x.installed) = true := by decide +kernel
  rw [Option.any_eq_true] at h
  obtain ⟨⟨s, L⟩, h1, h2⟩ := h
  rw [List.any_eq_true] at h2
  obtain ⟨r, h2, h3⟩ := h2
  simp only [Bool.and_eq_true, beq_iff_eq] at h3
  refine ⟨s.get, L.map Both.get, r, run_history _ (.init _ fun a => ?_) h1, ?_, h2, rfl, h3.1, h3.2⟩
  · cases a <;> exact start
  · intro T0 h4
    have h5 := run_last _ h1
    rw [← List.map_cons, List.getLast?_map, h5] at h4
    cases h4
    intro a n
    cases a <;> rfl

end Babel
