import Verif.Props.Selected
import Verif.Lemmas.Monitor2
/-
C78: what a monitoring client is told.
-/
set_option linter.unusedSimpArgs false
set_option linter.unusedVariables false
set_option linter.unusedSectionVars false
namespace Babel
open Spec

theorem talkRel_eq : TalkRel (· = ·) := ⟨fun _ => rfl⟩

/-- Right as far as possible when the kernel refuses requests. -/
def Nearly (a b : RouteLine) : Prop := a.metric = b.metric ∧ a.refmetric = b.refmetric ∧ (b.installed = true → a.installed = true)

theorem talkRel_nearly : TalkRel Nearly := ⟨fun _ => ⟨rfl, rfl, fun h => h⟩⟩
theorem loose_nearly : Loose Nearly := ⟨fun _ _ h => ⟨h.1, h.2.1, by simp⟩, fun _ _ _ h => h⟩

theorem find_mem_iff {c : Cfg} {s : St} (hi : Inv c s []) {k : PKey} {n : NeighId} {r : Route} :
    findRoute s k n = some r ↔ r ∈ s.routes ∧ r.key = k ∧ r.neigh = n := by
  constructor
  · exact findRoute_mem
  · rintro ⟨h, rfl, rfl⟩; exact findRoute_of_mem hi.lst h

/-- C78: a client that has read everything knows exactly the routes of the table, each with its metrics, its router-id and whether it is
selected, if the kernel has never refused a request. -/
theorem C78_routes (c : Cfg) (now : Timeval) (q : UInt16) (ifs : List Iface) (nc : NeighId → Nat) (rnd : Nat → Nat) (evs : List Ev)
    (k : PKey) (n : NeighId) (line : RouteLine) :
    let s := run c (St.init now q ifs nc rnd (fun _ => .ok)) evs
    (picture s.out).routes k n = some line ↔ ∃ r ∈ s.routes, r.key = k ∧ r.neigh = n ∧ line = lineOf r := by
  intro s
  have ht := talk_run (c := c) talkRel_eq now q ifs nc rnd (fun _ => .ok) (.inr fun _ => rfl) evs
  have hi : Inv c s [] := (Inv.init c now q ifs nc rnd (fun _ => .ok)).run evs
  have hd := ht.pic.dom k n
  constructor
  · intro h
    rw [h] at hd
    obtain ⟨r, hr⟩ := Option.isSome_iff_exists.1 hd.symm
    obtain ⟨h1, h2, h3⟩ := findRoute_mem hr
    exact ⟨r, h1, h2, h3, ht.pic.val k n (fun h => h) _ _ h hr⟩
  · rintro ⟨r, h1, h2, h3, rfl⟩
    have hr : findRoute s k n = some r := (find_mem_iff hi).2 ⟨h1, h2, h3⟩
    have hd : ((picture s.out).routes k n).isSome = (findRoute s k n).isSome := hd
    rw [hr] at hd
    obtain ⟨a, ha⟩ := Option.isSome_iff_exists.1 hd
    have he : a = lineOf r := ht.pic.val k n (fun h => h) _ _ ha hr
    rw [ha, he]

/-- Two routes to the same destination: one selected, one not. -/
example : let s := run Demo.cfg Demo.start Demo.evs
    ((picture s.out).routes (Demo.key 1) 1).map (fun l => (l.installed, l.metric)) = some (false, 296) ∧
    ((picture s.out).routes (Demo.key 1) 2).map (fun l => (l.installed, l.metric)) = some (true, 246) ∧
    (picture s.out).routes (Demo.key 1) 3 = none := by decide +kernel

/-- C78: whatever the kernel answers, the client knows which routes there are, and their metrics; and every selected route is shown as selected. -/
theorem C78_any_kernel (c : Cfg) (now : Timeval) (q : UInt16) (ifs : List Iface) (nc : NeighId → Nat) (rnd : Nat → Nat)
    (kres : Nat → KRes) (evs : List Ev) (k : PKey) (n : NeighId) :
    let s := run c (St.init now q ifs nc rnd kres) evs
    ((picture s.out).routes k n = none ↔ ∀ r ∈ s.routes, ¬ (r.key = k ∧ r.neigh = n)) ∧
    ∀ r ∈ s.routes, r.key = k → r.neigh = n → ∃ line, (picture s.out).routes k n = some line ∧
      line.metric = routeMetric r ∧ line.refmetric = r.refmetric ∧ (r.installed = true → line.installed = true) := by
  intro s
  have ht := talk_run (c := c) talkRel_nearly now q ifs nc rnd kres (.inl loose_nearly) evs
  have hi : Inv c s [] := (Inv.init c now q ifs nc rnd kres).run evs
  have hd : ((picture s.out).routes k n).isSome = (findRoute s k n).isSome := ht.pic.dom k n
  refine ⟨?_, fun r h1 h2 h3 => ?_⟩
  · have e : (picture s.out).routes k n = none ↔ findRoute s k n = none := by
      rw [← Option.isNone_iff_eq_none, ← Option.isNone_iff_eq_none, ← Option.not_isSome, ← Option.not_isSome, hd]
    rw [e]
    exact flatFind_none
  · have hr : findRoute s k n = some r := (find_mem_iff hi).2 ⟨h1, h2, h3⟩
    rw [hr] at hd
    obtain ⟨a, ha⟩ := Option.isSome_iff_exists.1 hd
    exact ⟨a, ha, ht.pic.val k n (fun h => h) _ _ ha hr⟩

/-- C78: it knows exactly the redistributed routes, with their metrics, whatever the kernel answers. -/
theorem C78_xroutes (c : Cfg) (now : Timeval) (q : UInt16) (ifs : List Iface) (nc : NeighId → Nat) (rnd : Nat → Nat)
    (kres : Nat → KRes) (evs : List Ev) (k : PKey) (m : Nat) :
    let s := run c (St.init now q ifs nc rnd kres) evs
    (picture s.out).xroutes k = some m ↔ ∃ x ∈ s.xroutes, x.key = k ∧ x.metric = m := by
  intro s
  have ht := talk_run (c := c) talkRel_nearly now q ifs nc rnd kres (.inl loose_nearly) evs
  have hi : Inv c s [] := (Inv.init c now q ifs nc rnd kres).run evs
  have hx : (picture s.out).xroutes k = (findXroute s k).map (·.metric) := ht.x k
  rw [hx, Option.map_eq_some_iff]
  constructor
  · rintro ⟨x, h1, h2⟩
    have := (findXroute_iff hi.xr).1 h1
    exact ⟨x, this.1, this.2, h2⟩
  · rintro ⟨x, h1, h2, h3⟩
    exact ⟨x, (findXroute_iff hi.xr).2 ⟨h1, h2⟩, h3⟩

/-- A route is redistributed, and then no longer. -/
example : let s := run Demo.cfg Demo.start [.kernelRoute true ⟨Demo.key 1, 0, 10, 3⟩]
    (picture s.out).xroutes (Demo.key 1) = some 0 ∧
    (picture (step Demo.cfg s (.checkXroutes [] true)).out).xroutes (Demo.key 1) = none := by decide +kernel

/-- C78: every line makes sense: routes are added once, and only known routes are changed or removed. -/
theorem C78_sense (c : Cfg) (now : Timeval) (q : UInt16) (ifs : List Iface) (nc : NeighId → Nat) (rnd : Nat → Nat)
    (kres : Nat → KRes) (evs : List Ev) : AllMakeSense (run c (St.init now q ifs nc rnd kres) evs).out :=
  (talk_run (c := c) talkRel_nearly now q ifs nc rnd kres (.inl loose_nearly) evs).pic.wf

/-- There are lines of all three kinds. -/
example : let s := run Demo.cfg Demo.start (Demo.evs ++ [.flushNeigh 1])
    (s.out.filter isLine).length ≥ 5 ∧
    (s.out.any fun o => match o with | .notifyRoute .flush _ => true | _ => false) = true := by decide +kernel

/-- C78: a client that asks later is first sent everything; with the lines that follow it knows exactly what is in the tables, if the kernel has
never refused a request. -/
theorem C78_late (c : Cfg) (now : Timeval) (q : UInt16) (ifs : List Iface) (nc : NeighId → Nat) (rnd : Nat → Nat) (before after : List Ev) :
    let s := run c (St.init now q ifs nc rnd (fun _ => .ok)) before
    let s' := run c s after
    ∃ new, s'.out.filter isLine = new ++ s.out.filter isLine ∧
      (∀ k n line, (picture (new ++ greeting s)).routes k n = some line ↔ ∃ r ∈ s'.routes, r.key = k ∧ r.neigh = n ∧ line = lineOf r) ∧
      (∀ k m, (picture (new ++ greeting s)).xroutes k = some m ↔ ∃ x ∈ s'.xroutes, x.key = k ∧ x.metric = m) := by
  intro s s'
  have hi : Inv c s [] := (Inv.init c now q ifs nc rnd (fun _ => .ok)).run before
  obtain ⟨new, hnew⟩ := run_grows hi after
  refine ⟨new, hnew, ?_⟩
  have ht := talk_run (c := c) talkRel_eq now q ifs nc rnd (fun _ => .ok) (.inr fun _ => rfl) before
  have hg := greeting_picture hi
  have hf := fun l => (picture_filter l isLine fun o h => h).1
  have he : picture (greeting s) = picture (s.out.filter isLine) := by
    rw [hf]
    refine picture_ext (fun k n => ?_) (fun k => ?_)
    · rw [hg.1]
      have hd : ((picture s.out).routes k n).isSome = (findRoute s k n).isSome := ht.pic.dom k n
      cases hr : findRoute s k n with
      | none => rw [hr] at hd; exact (by simpa using hd : (picture s.out).routes k n = none).symm
      | some r =>
        rw [hr] at hd
        obtain ⟨a, ha⟩ := Option.isSome_iff_exists.1 hd
        have he : a = lineOf r := ht.pic.val k n (fun h => h) _ _ ha hr
        rw [ha, he]; rfl
    · rw [hg.2]; exact (ht.x k).symm
  have he' : picture (new ++ greeting s) = picture s'.out := by
    rw [picture_same he new, ← hnew, hf]
  have hrun : s' = run c (St.init now q ifs nc rnd (fun _ => .ok)) (before ++ after) := by
    show run c (run c _ before) after = _
    unfold run
    rw [List.foldl_append]
  rw [he']
  refine ⟨fun k n line => ?_, fun k m => ?_⟩
  · rw [hrun]; exact C78_routes c now q ifs nc rnd (before ++ after) k n line
  · rw [hrun]; exact C78_xroutes c now q ifs nc rnd (fun _ => .ok) (before ++ after) k m

/-- The greeting after two updates has two lines; the switch to the second route that follows gives two more. -/
example : let s := run Demo.cfg Demo.start (Demo.evs.take 3)
    (greeting s).length = 2 ∧ ((picture (greeting s)).routes (Demo.key 1) 1).isSome = true ∧
    ((run Demo.cfg s (Demo.evs.drop 3)).out.filter isLine).length ≥ (s.out.filter isLine).length := by decide +kernel

/-- A kernel that accepts one request and then no more. -/
def Demo.stubborn : St := { Demo.start with kres := fun i => if i = 0 then .ok else .fail }

/-- If the kernel refuses to remove a route, clients go on seeing it as selected, although the daemon has deselected it. -/
theorem C78_selected_false :
    let s := run Demo.cfg Demo.stubborn [.update (some (Demo.rid 9)) (Demo.key 1) 7 200 400 1 (some (Demo.ll 1)),
      .kernelRoute true ⟨Demo.key 1, 0, 10, 3⟩]
    s.routes.map (·.installed) = [false] ∧ ((picture s.out).routes (Demo.key 1) 1).map (·.installed) = some true := by
  decide +kernel

/-- If the kernel refuses a new metric, clients go on seeing the old router-id. -/
theorem C78_id_false :
    let s := run { Demo.cfg with reflect := true } Demo.stubborn [.update (some (Demo.rid 9)) (Demo.key 1) 7 200 400 1 (some (Demo.ll 1)),
      .update (some (Demo.rid 8)) (Demo.key 1) 7 150 400 1 (some (Demo.ll 1))]
    s.routes.map (·.id) = [Demo.rid 8] ∧ ((picture s.out).routes (Demo.key 1) 1).map (·.id) = some (Demo.rid 9) := by
  decide +kernel

end Babel
