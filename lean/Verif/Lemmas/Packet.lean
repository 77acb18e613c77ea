import Verif.Lemmas.Daemon3
import Verif.Spec.Packet
/-
What a packet does: which events of the routing part it leads to, and what is noted about its sender.
-/
set_option linter.unusedSimpArgs false
set_option linter.unusedVariables false
set_option linter.unusedSectionVars false
namespace Babel
open Spec

section
variable {e : DCfg}

/-- Nothing but buffers changes. -/
def OnlyLinks (d d' : Daemon) : Prop := ∃ l, d' = { d with link := l }

theorem OnlyLinks.refl (d : Daemon) : OnlyLinks d d := ⟨d.link, rfl⟩

theorem OnlyLinks.trans {a b d : Daemon} (h : OnlyLinks a b) (g : OnlyLinks b d) : OnlyLinks a d := by
  obtain ⟨l, rfl⟩ := h
  obtain ⟨l', rfl⟩ := g
  exact ⟨l', rfl⟩

theorem onlyLinks_foldlM {α : Type} {f : Daemon → α → Option Daemon} (hf : ∀ d x d', f d x = some d' → OnlyLinks d d') :
    ∀ (l : List α) {d d' : Daemon}, l.foldlM f d = some d' → OnlyLinks d d' := by
  intro l
  induction l with
  | nil => intro d d' h; cases h; exact .refl d
  | cons x l ih =>
    intro d d' h
    rw [List.foldlM_cons] at h
    obtain ⟨d1, e1, e2⟩ := Option.bind_eq_some_iff.1 h
    exact (hf _ _ _ e1).trans (ih e2)

theorem write_only {d d' : Daemon} {i : IfId} {j : Nat} {op : Snd} (h : d.write e i j op = some d') : OnlyLinks d d' := by
  unfold Daemon.write at h
  simp only [Option.bind_eq_bind] at h
  obtain ⟨l, _, h⟩ := Option.bind_eq_some_iff.1 h
  cases h
  exact ⟨_, rfl⟩

theorem post_only {d d' : Daemon} {o : Out} (h : d.post e o = some d') : OnlyLinks d d' := by
  unfold Daemon.post at h
  split at h
  · split at h
    · cases h; exact .refl d
    · exact onlyLinks_foldlM (fun _ _ _ h => write_only h) _ h
  · cases h; exact .refl d

/-- The costs the routing part is told are those of the links. -/
theorem refresh_spec {d d1 : Daemon} (h : d.refresh e = some d1) : ∃ costs nc, d1 = { d with st := run e.node d.st costs } ∧
    (∀ ev ∈ costs, ∃ n v, ev = .setCost n v) ∧ run e.node d.st costs = { d.st with ncost := nc } ∧
    ((d.nbrs.map (·.1)).Nodup → ∀ p ∈ d.nbrs, neighbourCost d.st.now (linkCfgOf e d.st (e.node.ifOf p.1)) p.2.link = some (nc p.1)) := by
  have key : ∀ (l : List (NeighId × DNbr)) (d d1 : Daemon), l.foldlM (fun d p => do
        let v ← neighbourCost d.st.now (linkCfgOf e d.st (e.node.ifOf p.1)) p.2.link
        return { d with st := step e.node d.st (.setCost p.1 v) }) d = some d1 →
      ∃ costs nc, d1 = { d with st := run e.node d.st costs } ∧
        (∀ ev ∈ costs, ∃ n v, ev = .setCost n v) ∧ run e.node d.st costs = { d.st with ncost := nc } ∧
        (∀ m, m ∉ l.map (·.1) → nc m = d.st.ncost m) ∧
        ((l.map (·.1)).Nodup → ∀ p ∈ l, neighbourCost d.st.now (linkCfgOf e d.st (e.node.ifOf p.1)) p.2.link = some (nc p.1)) := by
    intro l
    induction l with
    | nil =>
      intro d d1 h
      cases h
      exact ⟨[], d.st.ncost, rfl, fun _ h => (by cases h), rfl, fun _ _ => rfl, fun _ _ h => (by cases h)⟩
    | cons p l ih =>
      intro d d1 h
      rw [List.foldlM_cons] at h
      obtain ⟨d2, e1, e2⟩ := Option.bind_eq_some_iff.1 h
      simp only [Option.bind_eq_bind] at e1
      obtain ⟨v, hv, e1⟩ := Option.bind_eq_some_iff.1 e1
      cases e1
      obtain ⟨costs, nc, h1, h2, h3, h4, h5⟩ := ih _ _ e2
      refine ⟨.setCost p.1 v :: costs, nc, h1, ?_, h3, ?_, ?_⟩
      · intro ev hev
        rcases List.mem_cons.1 hev with rfl | hev
        · exact ⟨_, _, rfl⟩
        · exact h2 ev hev
      · intro m hm
        rw [List.map_cons, List.mem_cons, not_or] at hm
        rw [h4 m hm.2]
        show (if m = p.1 then v else d.st.ncost m) = _
        rw [if_neg hm.1]
      · intro hn q hq
        rw [List.map_cons, List.nodup_cons] at hn
        rcases List.mem_cons.1 hq with rfl | hq
        · rw [h4 _ hn.1]
          show _ = some (if q.1 = q.1 then v else _)
          rw [if_pos rfl]
          exact hv
        · exact h5 hn.2 q hq
  obtain ⟨costs, nc, h1, h2, h3, _, h5⟩ := key d.nbrs d d1 h
  exact ⟨costs, nc, h1, h2, h3, h5⟩

/-- One event of the routing part. -/
theorem nodeAs_spec {d d' : Daemon} {f : (IfId → Link) → IfId → Link} {ev : Ev} (h : d.nodeAs e f ev = some d') :
    ∃ costs nc l, d' = { d with st := run e.node d.st (costs ++ [ev]), lastUpdate := dumped d ev, link := l } ∧
      (∀ ev ∈ costs, ∃ n v, ev = .setCost n v) ∧ run e.node d.st costs = { d.st with ncost := nc } ∧
      ((d.nbrs.map (·.1)).Nodup → ∀ p ∈ d.nbrs, neighbourCost d.st.now (linkCfgOf e d.st (e.node.ifOf p.1)) p.2.link = some (nc p.1)) := by
  unfold Daemon.nodeAs at h
  simp only [Option.bind_eq_bind] at h
  obtain ⟨d1, e1, h⟩ := Option.bind_eq_some_iff.1 h
  obtain ⟨costs, nc, h1, h2, h3, h4⟩ := refresh_spec e1
  obtain ⟨l, hl⟩ := onlyLinks_foldlM (fun _ _ _ h => post_only h) _ h
  refine ⟨costs, nc, l, ?_, h2, h3, h4⟩
  have hd : dumped d1 ev = dumped d ev := by
    rw [h1, h3]
    unfold dumped
    cases ev <;> rfl
  rw [hl, hd, h1]
  have : run e.node d.st (costs ++ [ev]) = step e.node (run e.node d.st costs) ev := by
    unfold run
    rw [List.foldl_append]
    rfl
  rw [this]

/-! ### Messages -/

/-- What is assumed of the state of the routing part: metrics and hop counts in messages are in range. -/
def Sane (s : St) : Prop := Keys (fun _ => True) (fun _ => True) (fun _ => True) s

theorem sane_rules : Rules e.node (fun _ => True) (fun _ => True) (fun _ => True) := ⟨trivial, fun _ _ => trivial, fun _ _ _ _ => trivial⟩

theorem sane_cost {s : St} (h : Sane s) (nc : NeighId → Nat) : Sane { s with ncost := nc } := keys_of_eq h rfl rfl rfl rfl rfl

/-- The events that messages lead to. -/
def PlainEv : Ev → Prop
  | .setCost _ _ => True
  | .updNeigh _ _ => True
  | .update _ _ _ _ _ _ _ => True
  | .retractNeigh _ _ => True
  | .fullUpdate _ _ => True
  | .routeRequest _ _ => True
  | .seqnoRequest _ _ h _ _ => h < 256
  | .flushNeigh _ => True
  | _ => False

/-- The state after such events. -/
structure Kept (s s' : St) : Prop where
  sane : Sane s'
  now : s'.now = s.now
  ifs : s'.ifaces.map Iface.fixed = s.ifaces.map Iface.fixed

theorem Kept.trans {a b c : St} (h : Kept a b) (g : Kept b c) : Kept a c := ⟨g.sane, g.now.trans h.now, g.ifs.trans h.ifs⟩

theorem plain_kept {s : St} (h : Sane s) (ev : Ev) (he : PlainEv ev) : Kept s (step e.node s ev) := by
  have key : ∀ (h1 : ∀ t, ev ≠ .tick t) (h2 : ∀ n v, ev ≠ .setCost n v) (h3 : ∀ i, ev ≠ .ifDown i ∧ ∀ b, ev ≠ .ifUp i b)
      (he : EvKeys e.node (fun _ => True) (fun _ => True) (fun _ => True) ev), Kept s (step e.node s ev) := by
    intro h1 h2 h3 he
    have t := tame_step sane_rules h ev he h1 h2 h3
    exact ⟨t.keys, t.now, t.ifs⟩
  cases ev with
  | setCost n v => exact ⟨sane_cost h _, rfl, rfl⟩
  | updNeigh f n => exact key nofun nofun (fun _ => ⟨nofun, nofun⟩) trivial
  | update id k q m iv n nh => exact key nofun nofun (fun _ => ⟨nofun, nofun⟩) ⟨fun _ => trivial, fun _ _ => trivial⟩
  | retractNeigh f n => exact key nofun nofun (fun _ => ⟨nofun, nofun⟩) trivial
  | fullUpdate i u => exact key nofun nofun (fun _ => ⟨nofun, nofun⟩) trivial
  | routeRequest n k => exact key nofun nofun (fun _ => ⟨nofun, nofun⟩) trivial
  | seqnoRequest n k hh q id => exact key nofun nofun (fun _ => ⟨nofun, nofun⟩) ⟨trivial, he, trivial⟩
  | flushNeigh n => exact key nofun nofun (fun _ => ⟨nofun, nofun⟩) trivial
  | _ => exact he.elim

theorem run_kept : ∀ (evs : List Ev) {s : St}, Sane s → (∀ ev ∈ evs, PlainEv ev) → Kept s (run e.node s evs) := by
  intro evs
  induction evs with
  | nil => intro s h _; exact ⟨h, rfl, rfl⟩
  | cons ev evs ih =>
    intro s h he
    have h1 := plain_kept (e := e) h ev (he ev (List.mem_cons_self ..))
    exact h1.trans (ih h1.sane fun x hx => he x (List.mem_cons_of_mem _ hx))

theorem kept_if {s s' : St} (h : Kept s s') (i : IfId) : (getIf s' i).map (fun x => (x.up, x.helloInterval)) = (getIf s i).map fun x => (x.up, x.helloInterval) := by
  have := getIf_fixed h.ifs i
  cases h1 : getIf s' i <;> cases h2 : getIf s i <;> rw [h1, h2] at this
  · cases this
  · cases this
  · rename_i a b
    have hab : a.fixed = b.fixed := by simpa using this
    have h1 : a.up = b.up := (by have := congrArg Iface.up hab; exact this)
    have h2 : a.helloInterval = b.helloInterval := (by have := congrArg Iface.helloInterval hab; exact this)
    simp [h1, h2]

theorem due_kept {d d' : Daemon} (h : Kept d.st d'.st) {i : IfId} (hl : d'.lastUpdate i = d.lastUpdate i) : due d' i = due d i := by
  have := kept_if h i
  unfold due
  rw [h.now, hl]
  cases h1 : getIf d'.st i <;> cases h2 : getIf d.st i <;> rw [h1, h2] at this
  · cases this
  · cases this
  · rename_i a b
    have hab : a.up = b.up ∧ a.helloInterval = b.helloInterval := by simpa using this
    simp only [Option.any_some, hab.2]

theorem costs_append (c : Cfg) (m : NeighId) (b : List Ev) : ∀ (a : List Ev) (s : St),
    costsDuring c m s (a ++ b) = costsDuring c m s a ++ costsDuring c m (run c s a) b := by
  intro a
  induction a with
  | nil => intro s; rfl
  | cons x a ih =>
    intro s
    show _ ++ costsDuring c m (step c s x) (a ++ b) = (_ ++ _) ++ _
    rw [ih, List.append_assoc]
    rfl

theorem costs_none (c : Cfg) (m : NeighId) : ∀ (a : List Ev) (s : St), (∀ ev ∈ a, ∃ n v, ev = .setCost n v) → costsDuring c m s a = [] := by
  intro a
  induction a with
  | nil => intro s _; rfl
  | cons x a ih =>
    intro s h
    obtain ⟨n, v, rfl⟩ := h x (List.mem_cons_self ..)
    show [] ++ costsDuring c m _ a = []
    rw [ih _ fun y hy => h y (List.mem_cons_of_mem _ hy)]
    rfl

theorem costs_undone (c : Cfg) (m : NeighId) : ∀ (a : List Ev) (s : St), a.filterMap deedOf = [] → costsDuring c m s a = [] := by
  intro a
  induction a with
  | nil => intro s _; rfl
  | cons x a ih =>
    intro s h
    rw [List.filterMap_cons] at h
    cases hx : deedOf x with
    | some y => rw [hx] at h; cases h
    | none =>
      rw [hx] at h
      show (if (deedOf x).isSome then _ else _) ++ costsDuring c m _ a = []
      rw [hx, ih _ h]
      rfl

theorem asOf_append (now : Timeval) (o : Bool) (l' : List Item) : ∀ (l : List Item) (b : Bool) (x : DNbr),
    asOf now o b x (l ++ l') = asOf now o b x l ++ asOf now o (b && !l.contains .requestAll) (if o then l.foldl (noted now) x else x) l' := by
  intro l
  induction l with
  | nil => intro b x; simp [asOf]
  | cons y l ih =>
    intro b x
    show _ ++ asOf now o _ _ (l ++ l') = (_ ++ _) ++ _
    rw [ih, List.append_assoc]
    congr 2
    have h1 : (b && y != .requestAll && !l.contains .requestAll) = (b && !(y :: l).contains .requestAll) := by
      rw [List.contains_cons, Bool.not_or, ← Bool.and_assoc]
      congr 2
      show (!(y == .requestAll)) = !(.requestAll == y)
      rw [Bool.beq_comm]
    rw [h1]
    cases o <;> rfl

theorem mem_of_nbr {d : Daemon} {m : NeighId} {x : DNbr} (h : d.nbr m = some x) : (m, x) ∈ d.nbrs := by
  unfold Daemon.nbr at h
  obtain ⟨p, hp, hx⟩ := Option.map_eq_some_iff.1 h
  have := List.mem_of_find?_eq_some hp
  have hm : (p.1 == m) = true := List.find?_some (p := fun x : NeighId × DNbr => x.1 == m) hp
  have : p = (m, x) := Prod.ext (by simpa using hm) hx
  rwa [← this]

/-- Everything is done with the costs as they are known at that time. -/
def Priced (e : DCfg) (n : NeighId) (items : List Item) (d : Daemon) (evs : List Ev) : Prop :=
  (d.nbrs.map (·.1)).Nodup → ∀ m x, d.nbr m = some x → (costsDuring e.node m d.st evs).map some =
    (asOf d.st.now (m == n) (due d (e.node.ifOf n)) x items).map fun x => neighbourCost d.st.now (linkCfgOf e d.st (e.node.ifOf m)) x.link

theorem priced_last {e : DCfg} {n : NeighId} {it : Item} {d : Daemon} {costs : List Ev} {nc : NeighId → Nat} {ev : Ev}
    (h2 : ∀ ev ∈ costs, ∃ n v, ev = .setCost n v) (h3 : run e.node d.st costs = { d.st with ncost := nc })
    (h4 : (d.nbrs.map (·.1)).Nodup → ∀ p ∈ d.nbrs, neighbourCost d.st.now (linkCfgOf e d.st (e.node.ifOf p.1)) p.2.link = some (nc p.1))
    (hd : (deedOf ev).isSome = asks (due d (e.node.ifOf n)) it) : Priced e n [it] d (costs ++ [ev]) := by
  intro hn m x hx
  rw [costs_append, costs_none _ _ _ _ h2, h3]
  show List.map some ([] ++ ((if (deedOf ev).isSome then [nc m] else []) ++ [])) = List.map _ ((if asks _ it then [x] else []) ++ [])
  rw [hd]
  split
  · simp only [List.nil_append, List.append_nil, List.map_cons, List.map_nil]
    rw [h4 hn _ (mem_of_nbr hx)]
  · rfl

theorem priced_nil {e : DCfg} {n : NeighId} {it : Item} {d : Daemon} (hd : asks (due d (e.node.ifOf n)) it = false) : Priced e n [it] d [] := by
  intro _ m x _
  show _ = List.map _ ((if asks _ it then [x] else []) ++ [])
  rw [hd]
  rfl

/-- What handling messages from neighbour `n` does. -/
structure Handles (e : DCfg) (n : NeighId) (items : List Item) (d d' : Daemon) : Prop where
  evs : ∃ evs, d'.st = run e.node d.st evs ∧ (∀ ev ∈ evs, PlainEv ev) ∧ evs.filterMap deedOf = asked (e.node.ifOf n) n (due d (e.node.ifOf n)) items ∧
    Priced e n items d evs
  nbr : ∀ m, d'.nbr m = if m = n then (d.nbr n).map (fun x => items.foldl (noted d.st.now) x) else d.nbr m
  keys : d'.nbrs.map (·.1) = d.nbrs.map (·.1)
  due : due d' (e.node.ifOf n) = (due d (e.node.ifOf n) && !items.contains .requestAll)
  last : ∀ i, d'.lastUpdate i = if i = e.node.ifOf n ∧ Spec.due d i = true ∧ .requestAll ∈ items then d.st.now.sec else d.lastUpdate i
  auth : d'.auth = d.auth
  fresh : d'.fresh = d.fresh

theorem asked_append (i : IfId) (n : NeighId) (l' : List Item) : ∀ (b : Bool) (l : List Item),
    asked i n b (l ++ l') = asked i n b l ++ asked i n (b && !l.contains .requestAll) l' := by
  intro b l
  induction l generalizing b with
  | nil => simp [asked]
  | cons x l ih =>
    cases x with
    | requestAll =>
      cases b with
      | true => simp [asked, ih]
      | false => simp [asked, ih]
    | _ => simp [asked, ih]

theorem handles_kept {n : NeighId} {items : List Item} {d d' : Daemon} (h : Sane d.st) (g : Handles e n items d d') : Kept d.st d'.st := by
  obtain ⟨evs, h1, h2, _⟩ := g.evs
  rw [h1]
  exact run_kept evs h h2

theorem Handles.trans {n : NeighId} {l l' : List Item} {a b d : Daemon} (hs : Sane a.st) (h : Handles e n l a b) (g : Handles e n l' b d) :
    Handles e n (l ++ l') a d := by
  have hk := handles_kept hs h
  obtain ⟨e1, h1, h2, h3, h4⟩ := h.evs
  obtain ⟨e2, g1, g2, g3, g4⟩ := g.evs
  refine ⟨⟨e1 ++ e2, ?_, ?_, ?_, ?_⟩, ?_, g.keys.trans h.keys, ?_, ?_, g.auth.trans h.auth, g.fresh.trans h.fresh⟩
  · rw [g1, h1]
    unfold run
    rw [List.foldl_append]
  · intro ev hev
    rcases List.mem_append.1 hev with hev | hev
    · exact h2 ev hev
    · exact g2 ev hev
  · rw [List.filterMap_append, h3, g3, asked_append, h.due]
  · intro hn m x hx
    rw [costs_append, List.map_append, h4 hn m x hx, asOf_append, List.map_append, ← h1]
    congr 1
    have hlc : linkCfgOf e b.st (e.node.ifOf m) = linkCfgOf e a.st (e.node.ifOf m) := by
      unfold linkCfgOf
      rw [ifUp_fixed hk.ifs]
    have := g4 (by rw [h.keys]; exact hn) m (if (m == n) then l.foldl (noted a.st.now) x else x) (by
      rw [h.nbr]
      by_cases hm : m = n
      · subst hm
        rw [if_pos rfl, hx]
        simp
      · rw [if_neg hm, hx, if_neg (by simpa using hm)])
    rw [this, h.due, hk.now, hlc]
  · intro m
    rw [g.nbr]
    by_cases hm : m = n
    · rw [if_pos hm, if_pos hm, h.nbr, if_pos rfl, hk.now, Option.map_map]
      cases a.nbr n with
      | none => rfl
      | some x => simp [List.foldl_append]
    · rw [if_neg hm, if_neg hm, h.nbr, if_neg hm]
  · rw [g.due, h.due]
    simp [Bool.and_assoc]
  · intro i
    rw [g.last, hk.now]
    by_cases hi : i = e.node.ifOf n
    · subst hi
      rw [h.due, h.last]
      by_cases hx : .requestAll ∈ l
      · by_cases hd : Spec.due a (e.node.ifOf n) = true <;> simp [hx, hd]
      · by_cases hd : Spec.due a (e.node.ifOf n) = true <;> simp [hx, hd]
    · rw [if_neg fun h => hi h.1, if_neg fun h => hi h.1, h.last, if_neg fun h => hi h.1]

theorem nbr_setNbr (d : Daemon) (n : NeighId) (f : DNbr → DNbr) (m : NeighId) :
    (d.setNbr n f).nbr m = if m = n then (d.nbr n).map f else d.nbr m := by
  unfold Daemon.setNbr Daemon.nbr
  simp only
  generalize d.nbrs = nb
  induction nb with
  | nil => simp
  | cons p l ih =>
    rw [List.map_cons]
    by_cases hp : p.1 = n
    · have h1 : (p.1 == n) = true := by simp [hp]
      rw [if_pos h1]
      by_cases hm : m = n
      · subst hm
        rw [if_pos rfl]
        rw [List.find?_cons_of_pos (p := fun x : NeighId × DNbr => x.1 == m) (by simpa using hp), List.find?_cons_of_pos (p := fun x : NeighId × DNbr => x.1 == m) h1]
        rfl
      · rw [if_neg hm]
        have h2 : ¬ (p.1 == m) = true := by
          intro h
          exact hm ((by simpa using h : p.1 = m).symm.trans hp)
        rw [List.find?_cons_of_neg (p := fun x : NeighId × DNbr => x.1 == m) (by simpa using h2), List.find?_cons_of_neg (p := fun x : NeighId × DNbr => x.1 == m) h2]
        rw [if_neg hm] at ih
        exact ih
    · have h1 : ¬ (p.1 == n) = true := by simpa using hp
      rw [if_neg h1]
      by_cases hm : m = n
      · subst hm
        rw [if_pos rfl] at ih ⊢
        rw [List.find?_cons_of_neg (p := fun x : NeighId × DNbr => x.1 == m) h1, List.find?_cons_of_neg (p := fun x : NeighId × DNbr => x.1 == m) h1]
        exact ih
      · rw [if_neg hm] at ih ⊢
        by_cases hpm : p.1 = m
        · rw [List.find?_cons_of_pos (p := fun x : NeighId × DNbr => x.1 == m) (by simpa using hpm), List.find?_cons_of_pos (p := fun x : NeighId × DNbr => x.1 == m) (by simpa using hpm)]
        · rw [List.find?_cons_of_neg (p := fun x : NeighId × DNbr => x.1 == m) (by simpa using hpm), List.find?_cons_of_neg (p := fun x : NeighId × DNbr => x.1 == m) (by simpa using hpm)]
          exact ih

theorem keys_setNbr (d : Daemon) (n : NeighId) (f : DNbr → DNbr) : (d.setNbr n f).nbrs.map (·.1) = d.nbrs.map (·.1) := by
  unfold Daemon.setNbr
  rw [List.map_map]
  refine List.map_congr_left fun p hp => ?_
  show (if p.1 == n then (p.1, f p.2) else p).1 = p.1
  split <;> rfl

/-- An event that some message asks for. -/
theorem handles_node {n : NeighId} {d d' : Daemon} {it : Item} {ev : Ev} (hs : Sane d.st) (hp : PlainEv ev)
    (hd : [ev].filterMap deedOf = asked (e.node.ifOf n) n (due d (e.node.ifOf n)) [it]) (ha : (deedOf ev).isSome = asks (due d (e.node.ifOf n)) it) (hl : dumped d ev = d.lastUpdate) (ht : it ≠ .requestAll)
    (hn : ∀ now x, noted now x it = x) (h : d.node e ev = some d') : Handles e n [it] d d' := by
  obtain ⟨costs, nc, l, h1, h2, h3, h4⟩ := nodeAs_spec h
  have hev : ∀ x ∈ costs ++ [ev], PlainEv x := by
    intro x hx
    rcases List.mem_append.1 hx with hx | hx
    · obtain ⟨_, _, rfl⟩ := h2 x hx
      trivial
    · rw [List.mem_singleton] at hx
      subst hx
      exact hp
  have hc : costs.filterMap deedOf = [] := by
    rw [List.filterMap_eq_nil_iff]
    intro x hx
    obtain ⟨_, _, rfl⟩ := h2 x hx
    rfl
  have hk : Kept d.st (run e.node d.st (costs ++ [ev])) := run_kept _ hs hev
  subst h1
  refine ⟨⟨_, rfl, hev, ?_, priced_last h2 h3 h4 ha⟩, ?_, rfl, ?_, ?_, rfl, rfl⟩
  · rw [List.filterMap_append, hc, List.nil_append, hd]
  · intro m
    by_cases hm : m = n
    · subst hm
      rw [if_pos rfl]
      show d.nbr m = _
      cases d.nbr m with
      | none => rfl
      | some x => simp [hn]
    · rw [if_neg hm]
      rfl
  · rw [due_kept (d := d) hk (by show dumped d ev _ = _; rw [hl])]
    have : ([it].contains Item.requestAll) = false := by
      simp only [List.contains_cons, List.contains_nil, Bool.or_false]
      simpa using fun h => ht h.symm
    rw [this]
    simp
  · intro i
    rw [if_neg]
    · show dumped d ev i = _
      rw [hl]
    · rintro ⟨_, _, h⟩
      exact ht (List.mem_singleton.1 h).symm

/-- What is heard about a link, and the change of its cost. -/
theorem handles_recost {n : NeighId} {d d' : Daemon} {it : Item} {f : DNbr → DNbr} {b : Bool} (hs : Sane d.st)
    (hd : asked (e.node.ifOf n) n (due d (e.node.ifOf n)) [it] = []) (ha : asks (due d (e.node.ifOf n)) it = false) (ht : it ≠ .requestAll)
    (hn : ∀ x, d.nbr n = some x → f x = noted d.st.now x it) (h : (d.setNbr n f).recost e n b = some d') : Handles e n [it] d d' := by
  have hc : ([it].contains Item.requestAll) = false := by
    simp only [List.contains_cons, List.contains_nil, Bool.or_false]
    simpa using fun h => ht h.symm
  have h0 : Handles e n [it] d (d.setNbr n f) := by
    refine ⟨⟨[], rfl, fun _ h => (by cases h), by rw [hd]; rfl, priced_nil ha⟩, ?_, keys_setNbr .., ?_, ?_, rfl, rfl⟩
    rotate_right
    · intro i
      rw [if_neg]
      · rfl
      · rintro ⟨_, _, h⟩
        exact ht (List.mem_singleton.1 h).symm
    · intro m
      rw [nbr_setNbr]
      by_cases hm : m = n
      · subst hm
        rw [if_pos rfl, if_pos rfl]
        cases hx : d.nbr m with
        | none => rfl
        | some x => simp [hn x hx]
      · rw [if_neg hm, if_neg hm]
    · rw [hc]
      simp
      rfl
  unfold Daemon.recost at h
  split at h
  · obtain ⟨costs, nc, l, h1, h2, h3, _⟩ := nodeAs_spec h
    have hev : ∀ x ∈ costs ++ [.updNeigh ((d.setNbr n f).st.routes.length + 1) n], PlainEv x := by
      intro x hx
      rcases List.mem_append.1 hx with hx | hx
      · obtain ⟨_, _, rfl⟩ := h2 x hx
        trivial
      · rw [List.mem_singleton] at hx
        subst hx
        trivial
    have hcs : costs.filterMap deedOf = [] := by
      rw [List.filterMap_eq_nil_iff]
      intro x hx
      obtain ⟨_, _, rfl⟩ := h2 x hx
      rfl
    have hk : Kept d.st (run e.node d.st (costs ++ [.updNeigh ((d.setNbr n f).st.routes.length + 1) n])) := run_kept _ hs hev
    have hd1 : due d' (e.node.ifOf n) = due d (e.node.ifOf n) :=
      due_kept (d := d) (d' := d') (by rw [h1]; exact hk) (by rw [h1]; rfl)
    subst h1
    refine ⟨⟨_, rfl, hev, ?_, ?_⟩, h0.nbr, h0.keys, ?_, h0.last, rfl, rfl⟩
    · rw [List.filterMap_append, hcs, hd]
      rfl
    · intro hn m x hx
      rw [costs_append, costs_none _ _ _ _ h2]
      show _ = List.map _ ((if asks _ it then [x] else []) ++ [])
      rw [ha]
      rfl
    · rw [hd1, hc]
      simp
  · cases h
    exact h0

theorem handles_same {n : NeighId} {d d' : Daemon} {it : Item} (hl : OnlyLinks d d') 
    (hd : asked (e.node.ifOf n) n (due d (e.node.ifOf n)) [it] = []) (ha : asks (due d (e.node.ifOf n)) it = false) (ht : it ≠ .requestAll)
    (hn : ∀ x, d.nbr n = some x → noted d.st.now x it = x) : Handles e n [it] d d' := by
  have hc : ([it].contains Item.requestAll) = false := by
    simp only [List.contains_cons, List.contains_nil, Bool.or_false]
    simpa using fun h => ht h.symm
  obtain ⟨l, rfl⟩ := hl
  refine ⟨⟨[], rfl, fun _ h => (by cases h), by rw [hd]; rfl, priced_nil ha⟩, ?_, rfl, ?_, ?_, rfl, rfl⟩
  rotate_right
  · intro i
    rw [if_neg]
    rintro ⟨_, _, h⟩
    exact ht (List.mem_singleton.1 h).symm
  · intro m
    by_cases hm : m = n
    · subst hm
      rw [if_pos rfl]
      show d.nbr m = _
      cases hx : d.nbr m with
      | none => rfl
      | some x => simp [hn x hx]
    · rw [if_neg hm]
      rfl
  · rw [hc]
    simp
    rfl

theorem handles_item {n : NeighId} {d d' : Daemon} {it : Item} (hs : Sane d.st) (hup : ifUp d.st (e.node.ifOf n) = true) (hi : ItemOk it)
    (h : d.item e n it = some d') : Handles e n [it] d d' := by
  cases it with
  | ackReq nonce iv =>
    simp only [Daemon.item] at h
    split at h
    · cases h; exact handles_same (.refl _) rfl rfl nofun (fun _ _ => rfl)
    · exact handles_same (write_only h) rfl rfl nofun (fun _ _ => rfl)
  | hello u q iv ts =>
    simp only [Daemon.item] at h
    split at h
    · next hx => cases h; exact handles_same (.refl _) rfl rfl nofun (fun x hx' => by rw [hx] at hx'; cases hx')
    · next x hx =>
      simp only [Option.bind_eq_bind] at h
      obtain ⟨d1, e1, h⟩ := Option.bind_eq_some_iff.1 h
      have h1 : Handles e n [.hello u q iv none] d d1 :=
        handles_recost hs rfl rfl nofun (fun y hy => by rw [hx] at hy; cases hy; rfl) e1
      cases ts with
      | none => cases h; exact h1
      | some t =>
        cases h
        have hk := handles_kept hs h1
        refine ⟨h1.evs, fun m => ?_, (keys_setNbr ..).trans h1.keys, ?_, ?_, h1.auth, h1.fresh⟩
        · rw [nbr_setNbr, h1.nbr, h1.nbr]
          by_cases hm : m = n
          · subst hm
            rw [if_pos rfl, if_pos rfl, if_pos rfl, hx, hk.now]
            rfl
          · rw [if_neg hm, if_neg hm, if_neg hm]
        · exact h1.due
        · intro i
          have := h1.last i
          rw [if_neg (by rintro ⟨_, _, h⟩; cases List.mem_singleton.1 h)] at this ⊢
          exact this
  | ihu tx iv =>
    simp only [Daemon.item] at h
    split at h
    · next hx => cases h; exact handles_same (.refl _) rfl rfl nofun (fun x hx' => by rw [hx] at hx'; cases hx')
    · next x hx =>
      exact handles_recost hs rfl rfl nofun (fun y hy => by rw [hx] at hy; cases hy; rfl) h
  | retractAll => exact handles_node (ev := .retractNeigh (d.st.routes.length + 1) n) hs trivial rfl rfl rfl nofun (fun _ _ => rfl) h
  | update id k q m iv nh => exact handles_node (ev := .update id k (UInt16.ofNat q) m iv n nh) hs trivial rfl rfl rfl nofun (fun _ _ => rfl) h
  | request k => exact handles_node (ev := .routeRequest n k) hs trivial rfl rfl rfl nofun (fun _ _ => rfl) h
  | seqnoRequest k hh q id =>
    have : hh < 256 := hi.2.2.1
    exact handles_node (ev := .seqnoRequest n k hh (UInt16.ofNat q) id) hs this rfl rfl rfl nofun (fun _ _ => rfl) h
  | requestAll =>
    simp only [Daemon.item, Daemon.fullDump] at h
    obtain ⟨f, hf, hfu⟩ : ∃ f, getIf d.st (e.node.ifOf n) = some f ∧ f.up = true := by
      unfold ifUp at hup
      cases hg : getIf d.st (e.node.ifOf n) with
      | none => rw [hg] at hup; cases hup
      | some f => rw [hg] at hup; exact ⟨f, rfl, hup⟩
    have hdue : due d (e.node.ifOf n) = decide (d.lastUpdate (e.node.ifOf n) < d.st.now.sec - (max (f.helloInterval / 100) 1 : Nat)) := by
      unfold due
      rw [hf]
      simp only [Option.any_some]
      congr 1
      rw [eq_iff_iff]
      omega
    rw [hf] at h
    simp only at h
    split at h
    · next hlt =>
      obtain ⟨costs, nc, l, h1, h2, h3, h4⟩ := nodeAs_spec h
      have hev : ∀ x ∈ costs ++ [.fullUpdate (e.node.ifOf n) false], PlainEv x := by
        intro x hx
        rcases List.mem_append.1 hx with hx | hx
        · obtain ⟨_, _, rfl⟩ := h2 x hx
          trivial
        · rw [List.mem_singleton] at hx
          subst hx
          trivial
      have hcs : costs.filterMap deedOf = [] := by
        rw [List.filterMap_eq_nil_iff]
        intro x hx
        obtain ⟨_, _, rfl⟩ := h2 x hx
        rfl
      have hk : Kept d.st (run e.node d.st (costs ++ [.fullUpdate (e.node.ifOf n) false])) := run_kept _ hs hev
      rw [decide_eq_true hlt] at hdue
      subst h1
      refine ⟨⟨_, rfl, hev, ?_, priced_last h2 h3 h4 (by rw [hdue]; rfl)⟩, ?_, rfl, ?_, ?_, rfl, rfl⟩
      rotate_right
      · intro i
        show (if i = e.node.ifOf n ∧ ifUp d.st (e.node.ifOf n) = true then _ else _) = _
        by_cases hi : i = e.node.ifOf n
        · subst hi
          rw [if_pos ⟨rfl, hup⟩, if_pos ⟨rfl, hdue, List.mem_singleton.2 rfl⟩]
        · rw [if_neg fun h => hi h.1, if_neg fun h => hi h.1]
      · rw [List.filterMap_append, hcs, hdue]
        rfl
      · intro m
        by_cases hm : m = n
        · subst hm
          rw [if_pos rfl]
          show d.nbr m = _
          cases d.nbr m <;> rfl
        · rw [if_neg hm]
          rfl
      · rw [hdue]
        have hnow := hk.now
        have hif := kept_if hk (e.node.ifOf n)
        unfold due
        simp only
        rw [hnow]
        cases hg : getIf (run e.node d.st (costs ++ [.fullUpdate (e.node.ifOf n) false])) (e.node.ifOf n) with
        | none => simp
        | some y =>
          have hz : dumped d (.fullUpdate (e.node.ifOf n) false) (e.node.ifOf n) = d.st.now.sec := by
            show (if e.node.ifOf n = e.node.ifOf n ∧ ifUp d.st (e.node.ifOf n) = true then _ else _) = _
            rw [if_pos ⟨rfl, hup⟩]
          simp only [Option.any_some, hz]
          simp
          omega
    · next hlt =>
      cases h
      rw [decide_eq_false hlt] at hdue
      refine ⟨⟨[], rfl, fun _ h => (by cases h), by rw [hdue]; rfl, priced_nil hdue⟩, ?_, rfl, ?_, ?_, rfl, rfl⟩
      rotate_right
      · intro i
        rw [if_neg]
        rintro ⟨hi, h, _⟩
        rw [hi, hdue] at h
        cases h
      · intro m
        by_cases hm : m = n
        · subst hm
          rw [if_pos rfl]
          cases d.nbr m <;> rfl
        · rw [if_neg hm]
      · rw [hdue]
        rfl

theorem handles_items {n : NeighId} : ∀ (l : List Item) {d d' : Daemon}, Sane d.st → ifUp d.st (e.node.ifOf n) = true → (∀ it ∈ l, ItemOk it) →
    d.items e n l = some d' → Handles e n l d d' := by
  intro l
  induction l with
  | nil =>
    intro d d' hs hup hi h
    cases h
    refine ⟨⟨[], rfl, fun _ h => (by cases h), rfl, fun _ _ _ _ => rfl⟩, ?_, rfl, ?_, ?_, rfl, rfl⟩
    rotate_right
    · intro i
      rw [if_neg]
      rintro ⟨_, _, h⟩
      cases h
    · intro m
      by_cases hm : m = n
      · subst hm
        rw [if_pos rfl]
        cases d.nbr m <;> rfl
      · rw [if_neg hm]
    · simp
  | cons x l ih =>
    intro d d' hs hup hi h
    unfold Daemon.items at h
    rw [List.foldlM_cons] at h
    obtain ⟨d1, e1, e2⟩ := Option.bind_eq_some_iff.1 h
    have h1 := handles_item hs hup (hi x (List.mem_cons_self ..)) e1
    have hk := handles_kept hs h1
    exact h1.trans hs (ih hk.sane (by rw [ifUp_fixed hk.ifs]; exact hup) (fun y hy => hi y (List.mem_cons_of_mem _ hy)) e2)

/-! ### Packets -/

theorem nbr_ensure (d : Daemon) (n m : NeighId) (ha : ((d.auth (e.node.ifOf n)).tab (e.addr n)).isSome = true) :
    (d.ensureNbr e n).nbr m = if m = n then some ((d.nbr n).getD (unheard d.st.now (d.fresh (e.node.ifOf n)))) else d.nbr m := by
  unfold Daemon.ensureNbr
  rw [ha, Bool.true_and]
  cases hx : d.nbr n with
  | some x =>
    rw [if_neg (by simp)]
    by_cases hm : m = n
    · rw [if_pos hm, hm, hx]
      rfl
    · rw [if_neg hm]
  | none =>
    rw [if_pos (by simp)]
    unfold Daemon.addNbr Daemon.nbr
    simp only
    by_cases hm : m = n
    · subst hm
      rw [if_pos rfl, List.find?_cons_of_pos (by simp)]
      rfl
    · rw [if_neg hm, List.find?_cons_of_neg (by simpa using fun h : n = m => hm h.symm)]

theorem ensure_last (d : Daemon) (n : NeighId) : (d.ensureNbr e n).lastUpdate = d.lastUpdate ∧ (d.ensureNbr e n).st = d.st := by
  unfold Daemon.ensureNbr
  split <;> exact ⟨rfl, rfl⟩

theorem ensure_nodup (d : Daemon) (n : NeighId) (h : (d.nbrs.map (·.1)).Nodup) : ((d.ensureNbr e n).nbrs.map (·.1)).Nodup := by
  unfold Daemon.ensureNbr
  split
  · next hc =>
    unfold Daemon.addNbr
    rw [List.map_cons, List.nodup_cons]
    refine ⟨fun hm => ?_, h⟩
    obtain ⟨p, hp, hpn⟩ := List.mem_map.1 hm
    have : (d.nbr n).isSome = true := by
      unfold Daemon.nbr
      rw [Option.isSome_map, List.find?_isSome]
      exact ⟨p, hp, by simpa using hpn⟩
    rw [Bool.and_eq_true] at hc
    cases hx : d.nbr n with
    | none => rw [hx] at this; cases this
    | some x => rw [hx] at hc; cases hc.2
  · exact h

theorem challenge_only {n : NeighId} {d d' : Daemon} {ch : Challenge} (h : d.challenge e n ch = some d') : OnlyLinks d d' := by
  unfold Daemon.challenge at h
  split at h
  · cases h; exact .refl _
  · exact write_only h

/-- What a sample of the round-trip time is. -/
theorem sample_spec {n : NeighId} {d d' : Daemon} {p : PState} (hs : Sane d.st) (h : d.sampleRtt e n p = some d') :
    (∃ evs, d'.st = run e.node d.st evs ∧ (∀ ev ∈ evs, PlainEv ev) ∧ evs.filterMap deedOf = []) ∧ d'.lastUpdate = d.lastUpdate ∧
    d'.nbrs.map (·.1) = d.nbrs.map (·.1) ∧
    ∀ m, d'.nbr m = if m = n then (d.nbr n).map (measured d.st.now (linkCfgOf e d.st (e.node.ifOf n)) p) else d.nbr m := by
  have same : ∀ (hn : ∀ x, d.nbr n = some x → measured d.st.now (linkCfgOf e d.st (e.node.ifOf n)) p x = x),
      (∃ evs, d.st = run e.node d.st evs ∧ (∀ ev ∈ evs, PlainEv ev) ∧ evs.filterMap deedOf = []) ∧ d.lastUpdate = d.lastUpdate ∧
      d.nbrs.map (·.1) = d.nbrs.map (·.1) ∧
      ∀ m, d.nbr m = if m = n then (d.nbr n).map (measured d.st.now (linkCfgOf e d.st (e.node.ifOf n)) p) else d.nbr m := by
    intro hn
    refine ⟨⟨[], rfl, fun _ h => (by cases h), rfl⟩, rfl, rfl, fun m => ?_⟩
    by_cases hm : m = n
    · subst hm
      rw [if_pos rfl]
      cases hx : d.nbr m with
      | none => rfl
      | some x => rw [Option.map_some, hn x hx]
    · rw [if_neg hm]
  unfold Daemon.sampleRtt at h
  split at h
  · next hx =>
    cases h
    exact same (fun x hx' => by rw [hx] at hx'; cases hx')
  · next x hx =>
    split at h
    · next hc =>
      split at h
      · next hr =>
        cases h
        refine same (fun y hy => ?_)
        rw [hx] at hy
        cases hy
        unfold measured
        rw [if_pos (by simpa [and_assoc] using hc), hr]
      · next rtt hr =>
        simp only at h
        split at h
        · cases h
        · have hm : ∀ m, (d.setNbr n fun z => { z with link := (x.link.addRtt d.st.now (linkCfgOf e d.st (e.node.ifOf n)) rtt).1 }).nbr m =
              if m = n then (d.nbr n).map (measured d.st.now (linkCfgOf e d.st (e.node.ifOf n)) p) else d.nbr m := by
            intro m
            rw [nbr_setNbr]
            by_cases hm : m = n
            · rw [if_pos hm, if_pos hm, hx, Option.map_some, Option.map_some]
              unfold measured
              rw [if_pos (by simpa [and_assoc] using hc), hr]
            · rw [if_neg hm, if_neg hm]
          unfold Daemon.recost at h
          split at h
          · obtain ⟨costs, nc, l, h1, h2, h3, _⟩ := nodeAs_spec h
            subst h1
            refine ⟨⟨_, rfl, ?_, ?_⟩, rfl, ?_, hm⟩
            rotate_right
            · exact keys_setNbr d n fun z => { z with link := (x.link.addRtt d.st.now (linkCfgOf e d.st (e.node.ifOf n)) rtt).1 }
            · intro y hy
              rcases List.mem_append.1 hy with hy | hy
              · obtain ⟨_, _, rfl⟩ := h2 y hy
                trivial
              · rw [List.mem_singleton] at hy
                subst hy
                trivial
            · rw [List.filterMap_append]
              have : costs.filterMap deedOf = [] := by
                rw [List.filterMap_eq_nil_iff]
                intro x hx
                obtain ⟨_, _, rfl⟩ := h2 x hx
                rfl
              rw [this]
              rfl
          · cases h
            exact ⟨⟨[], rfl, fun _ h => (by cases h), rfl⟩, rfl, keys_setNbr .., hm⟩
    · next hc =>
      cases h
      refine same (fun y hy => ?_)
      unfold measured
      rw [if_neg (by simpa [and_assoc] using hc)]

theorem node_nbrs {d d' : Daemon} {f : (IfId → Link) → IfId → Link} {ev : Ev} (h : d.nodeAs e f ev = some d') : d'.nbrs = d.nbrs := by
  obtain ⟨_, _, _, h1, _⟩ := nodeAs_spec h
  rw [h1]

theorem recost_nbrs {d d' : Daemon} {n : NeighId} {b : Bool} (h : d.recost e n b = some d') : d'.nbrs = d.nbrs := by
  unfold Daemon.recost at h
  split at h
  · exact node_nbrs h
  · cases h; rfl

theorem sample_nbrs {n : NeighId} {d d' : Daemon} {p : PState} (h : d.sampleRtt e n p = some d') : d'.nbrs.map (·.1) = d.nbrs.map (·.1) := by
  unfold Daemon.sampleRtt at h
  split at h
  · cases h; rfl
  · next x hx =>
    split at h
    · split at h
      · cases h; rfl
      · next rtt hr =>
        simp only at h
        split at h
        · cases h
        · have := recost_nbrs h
          rw [this]
          exact keys_setNbr d n fun z => { z with link := (x.link.addRtt d.st.now (linkCfgOf e d.st (e.node.ifOf n)) rtt).1 }
    · cases h; rfl

attribute [local irreducible] rttSample rttcost measured Daemon.sampleRtt

/-- A packet on an interface that is up. -/
theorem packet_spec (hc : DCfgOk e) {n : NeighId} {d d' : Daemon} {buf dst : Bytes} {len : Nat} (hs : Sane d.st) (hl : len ≤ buf.length)
    (hup : ifUp d.st (e.node.ifOf n) = true) {p : PState} {items : List Item} (hp : parsePacket (penvOf e n) buf len = some (p, items))
    (h : d.packet e n buf len dst = some d') :
    ∃ heard, (heard = [] ∨ heard = items) ∧
      ((d.nbrs.map (·.1)).Nodup → (d'.nbrs.map (·.1)).Nodup) ∧
      (∃ evs, d'.st = run e.node d.st evs ∧ (∀ ev ∈ evs, PlainEv ev) ∧ evs.filterMap deedOf = asked (e.node.ifOf n) n (due d (e.node.ifOf n)) heard ∧
        ((e.ifs (e.node.ifOf n)).key = none → linklocal (e.addr n) = true → buf[0]? = some 42 → buf[1]? = some 2 →
          (d.nbrs.map (·.1)).Nodup → ∀ m x, (if m = n then some ((d.nbr n).getD (unheard d.st.now (d.fresh (e.node.ifOf n)))) else d.nbr m) = some x →
            (costsDuring e.node m d.st evs).map some = (asOf d.st.now (m == n) (due d (e.node.ifOf n)) x heard).map
              fun x => neighbourCost d.st.now (linkCfgOf e d.st (e.node.ifOf m)) x.link)) ∧
      (∀ i, d'.lastUpdate i = if i = e.node.ifOf n ∧ due d i = true ∧ .requestAll ∈ heard then d.st.now.sec else d.lastUpdate i) ∧
      (∀ m, m ≠ n → d'.nbr m = d.nbr m) ∧
      ((e.ifs (e.node.ifOf n)).key = none → heard = items) ∧
      ((e.ifs (e.node.ifOf n)).key = none → linklocal (e.addr n) = true → buf[0]? = some 42 → buf[1]? = some 2 →
        d'.nbr n = some (measured d.st.now (linkCfgOf e d.st (e.node.ifOf n)) p
          (items.foldl (noted d.st.now) ((d.nbr n).getD (unheard d.st.now (d.fresh (e.node.ifOf n))))))) := by
  unfold Daemon.packet at h
  rw [if_pos hup] at h
  simp only [Option.bind_eq_bind] at h
  obtain ⟨⟨d1, eff0⟩, ha, h⟩ := Option.bind_eq_some_iff.1 h
  obtain ⟨d2, hi, h⟩ := Option.bind_eq_some_iff.1 h
  unfold Daemon.accept at ha
  simp only [Option.bind_eq_bind] at ha
  obtain ⟨⟨a, eff⟩, hr, ha⟩ := Option.bind_eq_some_iff.1 ha
  obtain ⟨d0, hch, ha⟩ := Option.bind_eq_some_iff.1 ha
  cases ha
  obtain ⟨l, hl0⟩ := onlyLinks_foldlM (fun _ _ _ h => challenge_only h) _ hch
  obtain ⟨E, hE⟩ : ∃ E : Daemon, E = Daemon.ensureNbr e { d with auth := fun x => if x = e.node.ifOf n then a else d.auth x } n := ⟨_, rfl⟩
  rw [← hE] at hl0
  have hEs : E.lastUpdate = d.lastUpdate ∧ E.st = d.st := by
    rw [hE]
    exact ensure_last _ _
  have hEn : (d.nbrs.map (·.1)).Nodup → (E.nbrs.map (·.1)).Nodup := by
    intro h
    rw [hE]
    exact ensure_nodup { d with auth := fun x => if x = e.node.ifOf n then a else d.auth x } n h
  have hEm : ∀ m, m ≠ n → E.nbr m = d.nbr m := by
    intro m hm
    rw [hE]
    unfold Daemon.ensureNbr
    split
    · unfold Daemon.addNbr Daemon.nbr
      simp only
      rw [List.find?_cons_of_neg (by simpa using fun h : n = m => hm h.symm)]
    · rfl
  obtain ⟨_, h2, h3⟩ := receive_ok (hc.nonces _) hl hr
  have hs1 : Sane d1.st := by rw [hl0]; show Sane E.st; rw [hEs.2]; exact hs
  have hst1 : d1.st = d.st := by rw [hl0]; exact hEs.2
  have hlu1 : d1.lastUpdate = d.lastUpdate := by rw [hl0]; exact hEs.1
  have hH := handles_items eff.items hs1 (by rw [hst1]; exact hup) h2 hi
  have hk2 := handles_kept hs1 hH
  have hdue : due d1 (e.node.ifOf n) = due d (e.node.ifOf n) := by
    unfold due
    rw [hst1, hlu1]
  obtain ⟨evs, e1, e2, e3, e4⟩ := hH.evs
  unfold Priced at e4
  rw [hst1, hdue] at e4
  rw [hst1] at e1
  rw [hdue] at e3
  have hn1 : (e.ifs (e.node.ifOf n)).key = none → linklocal (e.addr n) = true → buf[0]? = some 42 → buf[1]? = some 2 →
      eff.verdict ≠ .dropped ∧ eff.items = items ∧ d1.nbr n = some ((d.nbr n).getD (unheard d.st.now (d.fresh (e.node.ifOf n)))) := by
    intro hkey hll h42 h2'
    unfold receive at hr
    unfold parsePacket at hp
    simp only [Option.bind_eq_bind] at hr hp
    obtain ⟨o, ho, hp⟩ := Option.bind_eq_some_iff.1 hp
    rw [ho] at hr
    simp only [Option.bind_some, hkey] at hr
    cases o with
    | none =>
      exfalso
      unfold packetHeader at ho
      have hx : linklocal (penvOf e n).sender = true := hll
      rw [hx] at ho
      simp only [rd, Bool.not_true, Bool.false_eq_true, if_false, h42, h2', Option.bind_eq_bind, Option.bind_some] at ho
      cases hb : rd16 buf 2 with
      | none => rw [hb] at ho; cases ho
      | some b =>
        rw [hb] at ho
        change (if b + 4 > len then _ else _ : Option (Option Int)) = _ at ho
        split at ho <;> cases ho
    | some bl =>
      simp only at hr hp
      unfold deliver at hr
      simp only [Option.bind_eq_bind] at hr
      rw [hp] at hr
      simp only [Option.bind_some] at hr
      cases hr
      refine ⟨fun h => (by cases h), rfl, ?_⟩
      rw [hl0]
      show E.nbr n = _
      rw [hE, nbr_ensure, if_pos rfl]
      · rfl
      · show ((if e.node.ifOf n = e.node.ifOf n then _ else _ : AState).tab (e.addr n)).isSome = true
        rw [if_pos rfl]
        unfold AState.set
        show (if e.addr n = e.addr n then some _ else _ : Option NAuth).isSome = true
        rw [if_pos rfl]
        rfl
  have hhe : eff.items = [] ∨ eff.items = items := by
    rcases h3 with h3 | ⟨st, h3⟩
    · exact .inl h3
    · rw [hp] at h3
      cases h3
      exact .inr rfl
  have h1m : ∀ m, m ≠ n → d1.nbr m = d.nbr m := by
    intro m hm
    rw [hl0]
    exact hEm m hm
  have h1n : (d.nbrs.map (·.1)).Nodup → (d1.nbrs.map (·.1)).Nodup := by
    intro h
    rw [hl0]
    exact hEn h
  have hfin : ((∃ evs, d'.st = run e.node d2.st evs ∧ (∀ ev ∈ evs, PlainEv ev) ∧ evs.filterMap deedOf = []) ∧
      d'.nbrs.map (·.1) = d2.nbrs.map (·.1) ∧ d'.lastUpdate = d2.lastUpdate) ∧ (∀ m, m ≠ n → d'.nbr m = d2.nbr m) ∧
      (eff.verdict ≠ .dropped → d'.nbr n = (d2.nbr n).map (measured d2.st.now (linkCfgOf e d2.st (e.node.ifOf n)) p)) := by
    by_cases hv : eff.verdict = .dropped
    · rw [if_pos hv] at h
      cases h
      exact ⟨⟨⟨[], rfl, fun _ h => (by cases h), rfl⟩, rfl, rfl⟩, fun _ _ => rfl, fun hv' => absurd hv hv'⟩
    · rw [if_neg hv] at h
      obtain ⟨⟨p', it'⟩, h9, h⟩ := Option.bind_eq_some_iff.1 h
      have h10 : (p', it') = (p, items) := Option.some.inj (h9.symm.trans hp)
      obtain ⟨h5, h6, h7, h8⟩ := sample_spec hk2.sane h
      have h11 : p' = p := congrArg Prod.fst h10
      rw [h11] at h8
      exact ⟨⟨h5, h7, h6⟩, fun m hm => by rw [h8, if_neg hm], fun _ => by rw [h8, if_pos rfl]⟩
  obtain ⟨⟨⟨evs', g1, g2, g3⟩, g4, g7⟩, g5, g6⟩ := hfin
  refine ⟨eff.items, hhe, ?_, ⟨evs ++ evs', ?_, ?_, ?_, ?_⟩, ?_, ?_, ?_, ?_⟩
  · intro h
    rw [g4, hH.keys]
    exact h1n h
  · rw [g1, e1]
    unfold run
    rw [List.foldl_append]
  · intro ev hev
    rcases List.mem_append.1 hev with hev | hev
    · exact e2 ev hev
    · exact g2 ev hev
  · rw [List.filterMap_append, e3, g3, List.append_nil]
  · intro hkey hll h42 h2' hnd m x hx
    obtain ⟨_, _, k3⟩ := hn1 hkey hll h42 h2'
    rw [costs_append, costs_undone _ _ _ _ g3, List.append_nil]
    refine e4 (h1n hnd) m x ?_
    by_cases hm : m = n
    · rw [hm, k3]
      rwa [if_pos hm] at hx
    · rw [h1m m hm]
      rwa [if_neg hm] at hx
  · intro i
    rw [g7, hH.last, hst1, hlu1]
    have : due d1 i = due d i := by
      unfold due
      rw [hst1, hlu1]
    rw [this]
  · intro m hm
    rw [g5 m hm, hH.nbr, if_neg hm, h1m m hm]
  · intro hkey
    rcases hhe with hhe | hhe
    · unfold receive at hr
      unfold parsePacket at hp
      simp only [Option.bind_eq_bind] at hr hp
      obtain ⟨o, ho, hp⟩ := Option.bind_eq_some_iff.1 hp
      rw [ho] at hr
      simp only [Option.bind_some, hkey] at hr
      cases o with
      | none => cases hp; exact hhe
      | some bl =>
        simp only at hr hp
        unfold deliver at hr
        simp only [Option.bind_eq_bind] at hr
        rw [hp] at hr
        simp only [Option.bind_some] at hr
        cases hr
        rfl
    · exact hhe
  · intro hkey hll h42 h2'
    obtain ⟨k1, k2, k3⟩ := hn1 hkey hll h42 h2'
    rw [g6 k1, hH.nbr, if_pos rfl, k3, Option.map_some, Option.map_some, hk2.now, hst1, k2]
    have hlc : linkCfgOf e d2.st (e.node.ifOf n) = linkCfgOf e d.st (e.node.ifOf n) := by
      unfold linkCfgOf
      rw [ifUp_fixed hk2.ifs, hst1]
    rw [hlc]

/-! ### The list of neighbours -/

theorem onlyLinks_nbrs {d d' : Daemon} (h : OnlyLinks d d') : d'.nbrs = d.nbrs := by
  obtain ⟨l, rfl⟩ := h
  rfl

theorem item_nbrs {n : NeighId} {d d' : Daemon} {it : Item} (h : d.item e n it = some d') : d'.nbrs.map (·.1) = d.nbrs.map (·.1) := by
  cases it with
  | ackReq nonce iv =>
    simp only [Daemon.item] at h
    split at h
    · cases h; rfl
    · rw [onlyLinks_nbrs (write_only h)]
  | hello u q iv ts =>
    simp only [Daemon.item] at h
    split at h
    · cases h; rfl
    · simp only [Option.bind_eq_bind] at h
      obtain ⟨d1, e1, h⟩ := Option.bind_eq_some_iff.1 h
      have h1 : d1.nbrs.map (·.1) = d.nbrs.map (·.1) := by
        rw [recost_nbrs e1]
        exact keys_setNbr ..
      cases ts with
      | none => cases h; exact h1
      | some t => cases h; exact (keys_setNbr ..).trans h1
  | ihu tx iv =>
    simp only [Daemon.item] at h
    split at h
    · cases h; rfl
    · rw [recost_nbrs h]
      exact keys_setNbr ..
  | retractAll =>
    have h : d.nodeAs e (fun l => l) (.retractNeigh (d.st.routes.length + 1) n) = some d' := h
    rw [node_nbrs h]
  | update id k q m iv nh =>
    have h : d.nodeAs e (fun l => l) (.update id k (UInt16.ofNat q) m iv n nh) = some d' := h
    rw [node_nbrs h]
  | request k =>
    have h : d.nodeAs e (fun l => l) (.routeRequest n k) = some d' := h
    rw [node_nbrs h]
  | seqnoRequest k hh q id =>
    have h : d.nodeAs e (fun l => l) (.seqnoRequest n k hh (UInt16.ofNat q) id) = some d' := h
    rw [node_nbrs h]
  | requestAll =>
    simp only [Daemon.item, Daemon.fullDump] at h
    revert h
    refine iteInduction (motive := fun x => x = some d' → _) (fun _ h => ?_) (fun _ h => ?_)
    · rw [node_nbrs h]
    · cases h; rfl

theorem items_nbrs {n : NeighId} : ∀ (l : List Item) {d d' : Daemon}, d.items e n l = some d' → d'.nbrs.map (·.1) = d.nbrs.map (·.1) := by
  intro l
  induction l with
  | nil => intro d d' h; cases h; rfl
  | cons x l ih =>
    intro d d' h
    unfold Daemon.items at h
    rw [List.foldlM_cons] at h
    obtain ⟨d1, e1, e2⟩ := Option.bind_eq_some_iff.1 h
    exact (ih e2).trans (item_nbrs e1)

theorem packet_nodup {n : NeighId} {d d' : Daemon} {buf dst : Bytes} {len : Nat} (hn : (d.nbrs.map (·.1)).Nodup)
    (h : d.packet e n buf len dst = some d') : (d'.nbrs.map (·.1)).Nodup := by
  unfold Daemon.packet at h
  by_cases hup : ifUp d.st (e.node.ifOf n) = true
  · rw [if_pos hup] at h
    simp only [Option.bind_eq_bind] at h
    obtain ⟨⟨d1, eff⟩, ha, h⟩ := Option.bind_eq_some_iff.1 h
    obtain ⟨d2, hi, h⟩ := Option.bind_eq_some_iff.1 h
    have h1 : (d1.nbrs.map (·.1)).Nodup := by
      unfold Daemon.accept at ha
      simp only [Option.bind_eq_bind] at ha
      obtain ⟨⟨a, eff'⟩, hr, ha⟩ := Option.bind_eq_some_iff.1 ha
      obtain ⟨d0, hch, ha⟩ := Option.bind_eq_some_iff.1 ha
      have h2 := onlyLinks_nbrs (onlyLinks_foldlM (fun _ _ _ h => challenge_only h) _ hch)
      have h3 : d0 = d1 := congrArg Prod.fst (Option.some.inj ha)
      rw [← h3, h2]
      exact ensure_nodup { d with auth := fun x => if x = e.node.ifOf n then a else d.auth x } n hn
    have h2 : (d2.nbrs.map (·.1)).Nodup := by
      rw [items_nbrs _ hi]
      exact h1
    by_cases hv : eff.verdict = .dropped
    · rw [if_pos hv] at h
      cases h
      exact h2
    · rw [if_neg hv] at h
      obtain ⟨⟨p', it'⟩, h9, h⟩ := Option.bind_eq_some_iff.1 h
      rw [sample_nbrs h]
      exact h2
  · rw [if_neg hup] at h
    cases h
    exact hn

theorem nodup_dstep {d d' : Daemon} {ev : DEv} (hn : (d.nbrs.map (·.1)).Nodup) (h : dstep e d ev = some d') : (d'.nbrs.map (·.1)).Nodup := by
  cases ev with
  | packet n buf len dst => exact packet_nodup hn h
  | checkNbr n =>
    have h : d.checkNbr e n = some d' := h
    unfold Daemon.checkNbr at h
    split at h
    · cases h; exact hn
    · split at h
      · simp only [Option.bind_eq_bind] at h
        obtain ⟨d1, e1, h⟩ := Option.bind_eq_some_iff.1 h
        cases h
        show ((d1.nbrs.filter _).map _).Nodup
        rw [node_nbrs e1]
        exact List.Nodup.sublist (List.Sublist.map _ List.filter_sublist) hn
      · rw [recost_nbrs h]
        rw [keys_setNbr]
        exact hn
  | node ev =>
    have h : (if isInternal ev = true then d.node e ev else some d) = some d' := h
    split at h
    · rw [node_nbrs h]; exact hn
    · cases h; exact hn
  | say i j op =>
    have h : (if isChatter op = true ∧ j < d.fresh i ∧ (ifUp d.st i = true ∨ j ≠ 0) then d.write e i j op else some d) = some d' := h
    split at h
    · rw [onlyLinks_nbrs (write_only h)]; exact hn
    · cases h; exact hn
  | down i =>
    have h : (if ifUp d.st i then d.nodeAs e (ownBuf i Buf.down) (.ifDown i) else some d) = some d' := h
    split at h
    · rw [node_nbrs h]; exact hn
    · cases h; exact hn
  | up i mtu fi full =>
    have h : (if (getIf d.st i).isSome ∧ ifUp d.st i = false then
      d.nodeAs e (ownBuf i fun b => b.up b.dst mtu fi) (.ifUp i full) else some d) = some d' := h
    split at h
    · rw [node_nbrs h]; exact hn
    · cases h; exact hn

theorem nodup_drun (evs : List DEv) : ∀ {d d' : Daemon}, (d.nbrs.map (·.1)).Nodup → drun e d evs = some d' → (d'.nbrs.map (·.1)).Nodup := by
  induction evs with
  | nil => intro d d' hn h; cases h; exact hn
  | cons ev l ih =>
    intro d d' hn h
    unfold drun at h
    rw [List.foldlM_cons] at h
    obtain ⟨d1, e1, e2⟩ := Option.bind_eq_some_iff.1 h
    exact ih (nodup_dstep hn e1) e2

/-- A neighbour that is no longer there. -/
theorem nbr_filter (l : List (NeighId × DNbr)) (n m : NeighId) :
    ((l.filter fun p => !(p.1 == n)).find? (·.1 == m)) = if m = n then none else l.find? (·.1 == m) := by
  induction l with
  | nil => split <;> rfl
  | cons p l ih =>
    rw [List.filter_cons]
    by_cases hp : p.1 = n
    · rw [if_neg (by simp [hp]), ih]
      by_cases hm : m = n
      · rw [if_pos hm, if_pos hm]
      · rw [if_neg hm, if_neg hm, List.find?_cons_of_neg (p := fun x : NeighId × DNbr => x.1 == m)]
        simpa using fun h : p.1 = m => hm (h.symm.trans hp)
    · rw [if_pos (by simp [hp])]
      by_cases hpm : p.1 = m
      · have hm : m ≠ n := fun h => hp (hpm.trans h)
        rw [if_neg hm, List.find?_cons_of_pos (p := fun x : NeighId × DNbr => x.1 == m) (by simpa using hpm),
          List.find?_cons_of_pos (p := fun x : NeighId × DNbr => x.1 == m) (by simpa using hpm)]
      · rw [List.find?_cons_of_neg (p := fun x : NeighId × DNbr => x.1 == m) (by simpa using hpm), ih,
          List.find?_cons_of_neg (p := fun x : NeighId × DNbr => x.1 == m) (by simpa using hpm)]

end
end Babel
