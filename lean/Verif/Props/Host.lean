import Verif.Lemmas.Host
/-
C72: the settings of the host.
-/
set_option linter.unusedVariables false
namespace Babel
open Spec

/-- When the program ends, all settings of the host are what they would be if it had never run. -/
theorem C72_restored {p : Proc} (hr : ∀ c, p.ro c = false) (h6 : p.val .forward6 ≠ none) (h4 : p.val .forward4 ≠ none)
    (hr6 : p.val .redirects6 ≠ none) (hrp : p.val .rpAll ≠ none) {evs : List HostEv} (hf : FairRun (kernelSetup false p).2 evs) :
    ∃ h, hostMain false p evs = some h ∧ h.proc.val = evs.foldl own p.val := by
  obtain ⟨a, ha⟩ := Option.ne_none_iff_exists'.1 h6
  obtain ⟨b, hb⟩ := Option.ne_none_iff_exists'.1 h4
  obtain ⟨c, hc⟩ := Option.ne_none_iff_exists'.1 hr6
  obtain ⟨d, hd⟩ := Option.ne_none_iff_exists'.1 hrp
  obtain ⟨h, e, hi⟩ := setup_inv hr ha hb hc hd
  rw [e] at hf
  obtain ⟨h', e', hi'⟩ := hostRun_inv hi hf
  refine ⟨hostStop false h', ?_, stop_own hi'⟩
  unfold hostMain
  rw [e]
  simp only [Bool.not_true, Bool.false_eq_true, if_false]
  rw [e', Option.map_some]

/-- While it runs, the host forwards packets and ignores redirects, the reverse path filter is off on the interfaces that are up and in general, and the settings of
all other interfaces are those of the host. -/
theorem C72_wanted {p : Proc} (hr : ∀ c, p.ro c = false) (h6 : p.val .forward6 ≠ none) (h4 : p.val .forward4 ≠ none)
    (hr6 : p.val .redirects6 ≠ none) (hrp : p.val .rpAll ≠ none) {evs : List HostEv} (hf : FairRun (kernelSetup false p).2 evs) :
    ∃ h, hostRun false (kernelSetup false p).2 evs = some h ∧ h.proc.val .forward6 = some 1 ∧ h.proc.val .forward4 = some 1 ∧
      h.proc.val .redirects6 = some 0 ∧ h.proc.val .rpAll = some 0 ∧
      (∀ f ∈ h.ifs, f.up = true → h.proc.val (.rp f.name) = some 0 ∨ h.proc.val (.rp f.name) = none) ∧
      ∀ name, (¬ ∃ f ∈ h.ifs, f.name = name ∧ f.up = true) → h.proc.val (.rp name) = evs.foldl own p.val (.rp name) := by
  obtain ⟨a, ha⟩ := Option.ne_none_iff_exists'.1 h6
  obtain ⟨b, hb⟩ := Option.ne_none_iff_exists'.1 h4
  obtain ⟨c, hc⟩ := Option.ne_none_iff_exists'.1 hr6
  obtain ⟨d, hd⟩ := Option.ne_none_iff_exists'.1 hrp
  obtain ⟨h, e, hi⟩ := setup_inv hr ha hb hc hd
  rw [e] at hf ⊢
  obtain ⟨h', e', hi'⟩ := hostRun_inv hi hf
  refine ⟨h', e', hi'.glob.f6, hi'.glob.f4, hi'.glob.r6, hi'.glob.rp, ?_, ?_⟩
  · intro f hf hu
    obtain ⟨x, hx, e⟩ := List.mem_map.1 ((hi'.key_up hf).2 hu)
    have hx : (f.name, x.2) ∈ h'.olds := by rw [← e]; exact hx
    rcases hi'.used _ _ hx with ⟨_, h2⟩ | ⟨w, _, _, h2⟩
    · exact .inr h2
    · exact .inl h2
  · intro name hn
    exact hi'.free name fun h => hn ((hi'.keys name).1 h)

/-- When an interface is checked, it gets its index, and it is up afterwards if it exists, is operational, and was up with the same index or could be brought up. -/
theorem C72_checked {p : Proc} (hr : ∀ c, p.ro c = false) (h6 : p.val .forward6 ≠ none) (h4 : p.val .forward4 ≠ none)
    (hr6 : p.val .redirects6 ≠ none) (hrp : p.val .rpAll ≠ none) {evs : List HostEv} (hf : FairRun (kernelSetup false p).2 evs)
    {h : Host} (hh : hostRun false (kernelSetup false p).2 evs = some h) {f : HostIf} (hm : f ∈ h.ifs) (index : Nat) (op ok : Bool) :
    ∃ h', hostStep false h (.check f.name index op ok) = some h' ∧ ∃ g ∈ h'.ifs, g.name = f.name ∧ g.ifindex = index ∧
      (g.up = true ↔ 0 < index ∧ op = true ∧ ((f.up = true ∧ f.ifindex = index) ∨ (ok = true ∧ evs.foldl own p.val (.rp f.name) ≠ none))) := by
  obtain ⟨a, ha⟩ := Option.ne_none_iff_exists'.1 h6
  obtain ⟨b, hb⟩ := Option.ne_none_iff_exists'.1 h4
  obtain ⟨c, hc⟩ := Option.ne_none_iff_exists'.1 hr6
  obtain ⟨d, hd⟩ := Option.ne_none_iff_exists'.1 hrp
  obtain ⟨h0, e, hi⟩ := setup_inv hr ha hb hc hd
  rw [e] at hf hh
  obtain ⟨h', e', hi'⟩ := hostRun_inv hi hf
  obtain rfl : h' = h := Option.some.inj (e'.symm.trans hh)
  obtain ⟨k, h1, _, h2⟩ := hostCheck_inv hi' f.name index op ok
  refine ⟨k, h1, _, h2 f hm rfl, rfl, rfl, ?_⟩
  unfold checked
  simp only [Bool.and_eq_true, Bool.or_eq_true, decide_eq_true_eq, beq_iff_eq, Option.isSome_iff_ne_none, and_assoc]
  rw [eq_comm (a := index)]

/-! ### With `skip-kernel-setup` -/

theorem skip_down {h : Host} (f : HostIf) : (hostDown true h f).proc = h.proc := by
  unfold hostDown restoreIf
  simp only [if_true]
  split <;> rfl

theorem skip_step (h : Host) (ev : HostEv) : ∃ h', hostStep true h ev = some h' ∧ h'.proc.val = own h.proc.val ev := by
  cases ev with
  | add name =>
    refine ⟨_, rfl, ?_⟩
    show (if _ then h else _).proc.val = h.proc.val
    split <;> rfl
  | flush name =>
    unfold hostStep
    dsimp only
    split
    · exact ⟨_, rfl, rfl⟩
    · refine ⟨_, rfl, ?_⟩
      show (if _ then _ else h).proc.val = h.proc.val
      split
      · rw [skip_down]
      · rfl
  | host c v => exact ⟨_, rfl, rfl⟩
  | check name index op ok =>
    show ∃ h', hostCheck true h name index op ok = some h' ∧ h'.proc.val = h.proc.val
    unfold hostCheck
    split
    · exact ⟨_, rfl, rfl⟩
    · rename_i f _
      dsimp only
      have hk : (if index ≠ f.ifindex ∧ f.up = true then hostDown true h f else h).proc = h.proc := by
        split
        · exact skip_down f
        · rfl
      generalize (if index ≠ f.ifindex ∧ f.up = true then hostDown true h f else h) = k at hk
      generalize (if index ≠ f.ifindex then false else f.up) = u
      by_cases hw : (decide (0 < index) && op) = u
      · rw [if_pos hw]
        exact ⟨_, rfl, congrArg Proc.val hk⟩
      · rw [if_neg hw]
        by_cases hw : (decide (0 < index) && op) = true
        · rw [if_pos hw]
          unfold hostUp setupIf
          simp only [if_true, Option.map_some]
          split
          · exact ⟨_, rfl, (congrArg Proc.val (skip_down _)).trans (congrArg Proc.val hk)⟩
          · refine ⟨_, rfl, ?_⟩
            split
            · exact congrArg Proc.val hk
            · exact (congrArg Proc.val (skip_down _)).trans (congrArg Proc.val hk)
        · rw [if_neg hw]
          exact ⟨_, rfl, (congrArg Proc.val (skip_down _)).trans (congrArg Proc.val hk)⟩

/-- With `skip-kernel-setup` the program changes no setting, whatever happens. -/
theorem C72_skip (p : Proc) (evs : List HostEv) : (∃ h, hostRun true (kernelSetup true p).2 evs = some h ∧ h.proc.val = evs.foldl own p.val) ∧
    ∃ h, hostMain true p evs = some h ∧ h.proc.val = evs.foldl own p.val := by
  have gen : ∀ h : Host, ∃ h', hostRun true h evs = some h' ∧ h'.proc.val = evs.foldl own h.proc.val := by
    induction evs with
    | nil => exact fun h => ⟨h, rfl, rfl⟩
    | cons e es ih =>
      intro h
      obtain ⟨h1, e1, v1⟩ := skip_step h e
      obtain ⟨h2, e2, v2⟩ := ih h1
      refine ⟨h2, ?_, by rw [v2, v1]; rfl⟩
      unfold hostRun
      rw [e1]
      exact e2
  obtain ⟨h, e, v⟩ := gen (kernelSetup true p).2
  refine ⟨⟨h, e, v⟩, hostStop true h, ?_, ?_⟩
  · unfold hostMain
    have : kernelSetup true p = (true, (kernelSetup true p).2) := rfl
    rw [this]
    simp only [Bool.not_true, Bool.false_eq_true, if_false]
    rw [e, Option.map_some]
  · rw [← (show (kernelSetup true p).2.proc.val = p.val from rfl), ← v]
    unfold hostStop kernelRestore
    simp only [if_true]
    have : ∀ (l : List HostIf) (h : Host), (l.foldl (fun h f => if f.up then hostDown true h f else h) h).proc = h.proc := by
      intro l
      induction l with
      | nil => exact fun _ => rfl
      | cons f l ih =>
        intro h
        rw [List.foldl_cons, ih]
        split
        · exact skip_down f
        · rfl
    rw [this]

/-! ### Findings -/

/-- If one of the settings cannot be read, the program ends without restoring the settings it has already changed: the host goes on forwarding packets. -/
theorem C72_half {p : Proc} (hr : ∀ c, p.ro c = false) (h6 : p.val .forward6 = some 0) (h4 : p.val .forward4 = some 0)
    (hr6 : p.val .redirects6 = none) (evs : List HostEv) :
    ∃ h, hostMain false p evs = some h ∧ h.proc.val .forward6 = some 1 ∧ h.proc.val .forward4 = some 1 := by
  obtain ⟨p1, v1, r1, e1⟩ := setupLoop_cons p ⟨.forward6, 1, -1⟩ [⟨.forward4, 1, -1⟩, ⟨.redirects6, 0, -1⟩, ⟨.rpAll, 0, -1⟩] 0 h6 hr
  obtain ⟨p2, v2, r2, e2⟩ := setupLoop_cons p1 ⟨.forward4, 1, -1⟩ [⟨.redirects6, 0, -1⟩, ⟨.rpAll, 0, -1⟩] 0 (by rw [v1]; simpa using h4) r1
  have e3 : setupLoop [⟨.redirects6, 0, -1⟩, ⟨.rpAll, 0, -1⟩] p2 = (false, [⟨.redirects6, 0, -1⟩, ⟨.rpAll, 0, -1⟩], p2) := by
    unfold setupLoop
    have : readProc p2 .redirects6 = -1 := by
      unfold readProc
      have : p2.val .redirects6 = none := by rw [v2, v1]; simpa using hr6
      rw [this]
    simp [this]
  unfold hostMain kernelSetup sysctlSettings
  rw [if_neg (by decide), e1, e2, e3]
  refine ⟨_, rfl, ?_, ?_⟩
  · show p2.val _ = _
    rw [v2, v1]; simp
  · show p2.val _ = _
    rw [v2]; simp

/-- A host with `n` interfaces, all of them up. -/
def crowd (nm : Nat → Bytes) (h : Host) (n : Nat) : Host :=
  { h with olds := (List.range n).map fun i => (nm i, 0), ifs := (List.range n).map fun i => ⟨nm i, i + 1, true⟩ }

theorem crowd_step {nm : Nat → Bytes} {n : Nat} (hinj : ∀ i, i < n → nm i ≠ nm n) (hs : (nm n).length ≤ 15) {h : Host}
    (h0 : h.proc.val (.rp (nm n)) = some 0) :
    (hostStep false (crowd nm h n) (.add (nm n))).bind (fun k => hostStep false k (.check (nm n) (n + 1) true true)) =
      if n < 1024 then some (crowd nm h (n + 1)) else none := by
  have hne : ∀ f ∈ (List.range n).map (fun i => (⟨nm i, i + 1, true⟩ : HostIf)), f.name ≠ nm n := by
    intro f hf
    obtain ⟨i, hi, rfl⟩ := List.mem_map.1 hf
    exact hinj i (List.mem_range.1 hi)
  have ha : ((crowd nm h n).ifs.any (fun f => f.name = nm n)) = false := by
    rw [List.any_eq_false]
    intro f hf
    simpa using hne f hf
  have hfd : ((List.range n).map (fun i => (⟨nm i, i + 1, true⟩ : HostIf)) ++ [(⟨nm n, 0, false⟩ : HostIf)]).find? (fun f : HostIf => f.name = nm n) = some ⟨nm n, 0, false⟩ := by
    rw [List.find?_append, List.find?_eq_none.2 (fun f hf => by simpa using hne f hf)]
    simp
  have hmap : ∀ g : HostIf → HostIf, ∀ x : HostIf, x.name = nm n → ((List.range n).map (fun i => (⟨nm i, i + 1, true⟩ : HostIf)) ++ [x]).map
      (fun f => if f.name = nm n then g f else f) = (List.range n).map (fun i => (⟨nm i, i + 1, true⟩ : HostIf)) ++ [g x] := by
    intro g x hx
    rw [List.map_append]
    congr 1
    · conv => rhs; rw [← List.map_id ((List.range n).map (fun i => (⟨nm i, i + 1, true⟩ : HostIf)))]
      exact List.map_congr_left fun f hf => if_neg (hne f hf)
    · simp [hx]
  have hkey : ((List.range n).map fun i => (nm i, (0 : Int))).findIdx? (fun o => o.1 == nm n) = none := by
    rw [List.findIdx?_eq_none_iff]
    intro o ho
    obtain ⟨i, hi, rfl⟩ := List.mem_map.1 ho
    simpa using hinj i (List.mem_range.1 hi)
  have e1 : readProc h.proc (.rp (nm n)) = 0 := by unfold readProc; rw [h0]; rfl
  have hlen : ¬ (nm n).length + 34 ≥ 100 := by omega
  have hol : ((List.range n).map fun i => (nm i, (0 : Int))).length = n := by simp
  have hr1 : (List.range (n + 1)).map (fun i => (⟨nm i, i + 1, true⟩ : HostIf)) =
      (List.range n).map (fun i => (⟨nm i, i + 1, true⟩ : HostIf)) ++ [⟨nm n, n + 1, true⟩] := by rw [List.range_succ, List.map_append]; rfl
  have hr2 : (List.range (n + 1)).map (fun i => (nm i, (0 : Int))) = (List.range n).map (fun i => (nm i, (0 : Int))) ++ [(nm n, 0)] := by
    rw [List.range_succ, List.map_append]; rfl
  simp only [hostStep, ha, Bool.false_eq_true, if_false, Option.bind_some]
  unfold crowd
  rw [hr1, hr2]
  generalize (List.range n).map (fun i => (⟨nm i, i + 1, true⟩ : HostIf)) = L at hfd hmap
  generalize (List.range n).map (fun i => (nm i, (0 : Int))) = O at hkey hol
  unfold hostCheck
  dsimp only
  rw [hfd]
  have m1 := hmap (fun f => { f with ifindex := n + 1 }) ⟨nm n, 0, false⟩ rfl
  have m2 := hmap (fun f => { f with up := true }) ⟨nm n, n + 1, false⟩ rfl
  dsimp only at m1 m2
  have hg : getOldIf O (nm n) = if n < 1024 then (some n, O ++ [(nm n, -1)]) else (none, O) := by
    unfold getOldIf
    rw [hkey]
    dsimp only
    rw [hol]
    unfold MAX_INTERFACES
    by_cases hn : n < 1024
    · rw [if_neg (by omega), if_pos hn]
    · rw [if_pos (by omega), if_neg hn]
  have hset : (O ++ [(nm n, (-1 : Int))]).set n (nm n, 0) = O ++ [(nm n, 0)] := by
    rw [List.set_append_right _ _ (by omega), hol, Nat.sub_self]; rfl
  simp only [setIndex, hostUp, setUp, setupIf]
  by_cases hn : n < 1024
  · rw [if_pos hn] at hg ⊢
    simp [e1, hlen, m1, m2]
    rw [hg]
    simp [hset]
  · rw [if_neg hn] at hg ⊢
    simp [e1, hlen, m1, m2]
    rw [hg]

/-- With more interfaces than `MAX_INTERFACES`, the program reads outside of its table: after 1024 interfaces with different names have come up, nothing is
wrong, but the next one is one too many. -/
theorem C72_full {p : Proc} (hr : ∀ c, p.ro c = false) (h6 : p.val .forward6 ≠ none) (h4 : p.val .forward4 ≠ none)
    (hr6 : p.val .redirects6 ≠ none) (hrp : p.val .rpAll ≠ none) {nm : Nat → Bytes} (hinj : ∀ i j, j ≤ 1024 → i < j → nm i ≠ nm j)
    (hs : ∀ i, i ≤ 1024 → (nm i).length ≤ 15) (h0 : ∀ i, i ≤ 1024 → p.val (.rp (nm i)) = some 0) (n : Nat) (hn : n ≤ 1025) :
    (hostRun false (kernelSetup false p).2 ((List.range n).flatMap fun i => [.add (nm i), .check (nm i) (i + 1) true true])).isSome =
      decide (n ≤ 1024) := by
  obtain ⟨a, ha⟩ := Option.ne_none_iff_exists'.1 h6
  obtain ⟨b, hb⟩ := Option.ne_none_iff_exists'.1 h4
  obtain ⟨c, hc⟩ := Option.ne_none_iff_exists'.1 hr6
  obtain ⟨d, hd⟩ := Option.ne_none_iff_exists'.1 hrp
  obtain ⟨h, e, hi⟩ := setup_inv hr ha hb hc hd
  rw [e]
  have happ : ∀ (l m : List HostEv) (h : Host), hostRun false h (l ++ m) = (hostRun false h l).bind fun k => hostRun false k m := by
    intro l m
    induction l with
    | nil => exact fun h => rfl
    | cons ev l ih =>
      intro h
      show (hostStep false h ev).bind _ = ((hostStep false h ev).bind _).bind _
      cases hostStep false h ev with
      | none => rfl
      | some k => exact ih k
  have h1 : ∀ i, i ≤ 1024 → h.proc.val (.rp (nm i)) = some 0 := fun i hi' => by
    rw [hi.free _ (fun hk => ?_), h0 i hi']
    obtain ⟨f, hf, _⟩ := (hi.keys _).1 hk
    have : h = (kernelSetup false p).2 := by rw [e]
    rw [this] at hf
    unfold kernelSetup at hf
    rw [if_neg (by decide)] at hf
    cases hf
  have h2 : crowd nm h 0 = h := by
    have : h = (kernelSetup false p).2 := by rw [e]
    rw [this]
    unfold kernelSetup crowd
    rw [if_neg (by decide)]
    rfl
  have gen : ∀ n, n ≤ 1024 → hostRun false h ((List.range n).flatMap fun i => [.add (nm i), .check (nm i) (i + 1) true true]) = some (crowd nm h n) := by
    intro n
    induction n with
    | zero => intro _; rw [h2]; rfl
    | succ n ih =>
      intro hn
      rw [List.range_succ, List.flatMap_append, happ, ih (by omega)]
      show ((hostStep false (crowd nm h n) (.add (nm n))).bind fun k => (hostStep false k (.check (nm n) (n + 1) true true)).bind fun k => some k) = _
      simp only [Option.bind_fun_some]
      rw [crowd_step (fun i hi => hinj i n (by omega) hi) (hs n (by omega)) (h1 n (by omega)), if_pos (by omega)]
  by_cases hn2 : n ≤ 1024
  · rw [gen n hn2]; simp [hn2]
  · obtain rfl : n = 1024 + 1 := by omega
    rw [List.range_succ, List.flatMap_append, happ, gen 1024 (Nat.le_refl _)]
    have e2 : hostRun false (crowd nm h 1024) ([1024].flatMap fun i => [.add (nm i), .check (nm i) (i + 1) true true]) =
        ((hostStep false (crowd nm h 1024) (.add (nm 1024))).bind fun k => (hostStep false k (.check (nm 1024) (1024 + 1) true true)).bind fun k => some k) := rfl
    rw [Option.bind_some, e2]
    simp only [Option.bind_fun_some]
    rw [crowd_step (fun i hi => hinj i 1024 (by omega) hi) (hs 1024 (by omega)) (h1 1024 (by omega)), if_neg (by omega)]
    rfl

namespace HostDemo

/-- The name `eth0`. -/
def eth0 : Bytes := [101, 116, 104, 48]

/-- A host that does not forward packets, with the reverse path filter set. -/
def p : Proc where
  val := fun c => match c with
    | .forward6 => some 0
    | .forward4 => some 0
    | .redirects6 => some 1
    | .rpAll => some 2
    | .rp n => if n = eth0 then some 1 else none
  ro := fun _ => false

/-- The interface comes up, disappears, is made again with another setting, comes up, and is removed from the configuration. -/
def evs : List HostEv :=
  [.add eth0, .check eth0 2 true true, .host (.rp eth0) none, .check eth0 0 false true, .host (.rp eth0) (some 2), .check eth0 3 true true,
    .check eth0 3 true true]

end HostDemo

/-- If an interface disappears and is made again while the program does not look, it gets the setting of the old one, for ever. -/
theorem C72_recreated : ∃ evs, evs = [.add HostDemo.eth0, .check HostDemo.eth0 2 true true, .host (.rp HostDemo.eth0) none, .host (.rp HostDemo.eth0) (some 0),
      .check HostDemo.eth0 3 true true] ∧
    (hostMain false HostDemo.p evs).map (fun h => h.proc.val (.rp HostDemo.eth0)) = some (some 1) ∧
    evs.foldl own HostDemo.p.val (.rp HostDemo.eth0) = some 0 :=
  ⟨_, rfl, by decide +kernel, by decide +kernel⟩

namespace HostDemo

theorem fair : FairRun (kernelSetup false p).2 evs := by
  refine ⟨⟨by decide, by decide⟩, ?_⟩
  rintro _ ⟨⟩
  refine ⟨trivial, ?_⟩
  rintro _ ⟨⟩
  refine ⟨⟨_, rfl, fun _ => rfl⟩, ?_⟩
  rintro _ ⟨⟩
  refine ⟨trivial, ?_⟩
  rintro _ ⟨⟩
  refine ⟨⟨_, rfl, fun h => by revert h; decide⟩, ?_⟩
  rintro _ ⟨⟩
  refine ⟨trivial, ?_⟩
  rintro _ ⟨⟩
  exact ⟨trivial, fun _ _ => trivial⟩

example : ∃ h, hostMain false p evs = some h ∧ h.proc.val = evs.foldl own p.val :=
  C72_restored (fun _ => rfl) (by decide) (by decide) (by decide) (by decide) fair

/-- Before the end the interface is up and its filter is off; afterwards it is 2. -/
example : (hostRun false (kernelSetup false p).2 evs).map (fun h => (h.ifs, h.proc.val (.rp eth0), h.olds)) = some ([⟨eth0, 3, true⟩], some 0, [(eth0, 2)]) ∧
    evs.foldl own p.val (.rp eth0) = some 2 ∧ evs.foldl own p.val .forward6 = some 0 := by decide +kernel

/-- The names `AA`, `AB`, ... -/
def nm (i : Nat) : Bytes := [UInt8.ofNat (65 + i / 32), UInt8.ofNat (65 + i % 32)]

example : hostRun false (kernelSetup false ⟨fun _ => some 0, fun _ => false⟩).2
    ((List.range 1025).flatMap fun i => [.add (nm i), .check (nm i) (i + 1) true true]) = none := by
  have h : ∀ i j, j ≤ 1024 → i < j → nm i ≠ nm j := by
    intro i j hj hi e
    simp only [nm, List.cons.injEq, and_true] at e
    have h1 := congrArg UInt8.toNat e.1
    have h2 := congrArg UInt8.toNat e.2
    simp only [UInt8.toNat_ofNat'] at h1 h2
    omega
  have := C72_full (p := ⟨fun _ => some 0, fun _ => false⟩) (fun _ => rfl) (by decide) (by decide) (by decide) (by decide) h (fun _ _ => by simp [nm])
    (fun _ _ => rfl) 1025 (Nat.le_refl _)
  rw [← Option.not_isSome_iff_eq_none, this]
  decide

end HostDemo

end Babel
