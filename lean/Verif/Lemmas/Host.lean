import Verif.Spec.Host
/-
The settings of the host: invariant.
-/
set_option linter.unusedVariables false
set_option linter.unusedSimpArgs false
namespace Babel
open Spec

/-! ### The table of old settings -/

theorem freeOldIf_perm {olds : List (Bytes × Int)} {i : Nat} (hi : i < olds.length) : (freeOldIf olds i).Perm (olds.eraseIdx i) := by
  have hs : olds = olds.take i ++ olds[i] :: olds.drop (i + 1) := by simp
  generalize ha : olds.take i = as at hs
  generalize hb : olds.drop (i + 1) = bs at hs
  generalize olds[i] = o at hs
  have hl : as.length = i := by rw [← ha]; simp; omega
  have hne : olds ≠ [] := by intro h; simp [h] at hi
  unfold freeOldIf
  rw [List.getLast?_eq_some_getLast hne]
  dsimp only
  rw [if_neg (by omega)]
  subst hl
  rcases List.eq_nil_or_concat bs with h | ⟨cs, l, h⟩
  · subst h; subst hs
    simp [List.eraseIdx_append_of_length_le (Nat.le_refl _)]
  · rw [List.concat_eq_append] at h; subst h; subst hs
    simp only [List.set_append_right _ _ (Nat.le_refl _), Nat.sub_self, List.set_cons_zero, List.eraseIdx_append_of_length_le (Nat.le_refl _),
      List.eraseIdx_cons_zero]
    have : (as ++ o :: (cs ++ [l])).getLast hne = l := by
      rw [List.getLast_append_of_ne_nil (by simp) (by simp)]
      simp [List.getLast_cons]
    rw [this]
    have : as ++ l :: (cs ++ [l]) = (as ++ l :: cs) ++ [l] := by simp
    rw [this, List.dropLast_concat]
    apply List.Perm.append_left
    exact (List.perm_append_singleton l cs).symm

theorem mem_eraseIdx_nodup {olds : List (Bytes × Int)} (hn : (olds.map Prod.fst).Nodup) {i : Nat} {n : Bytes} {v : Int}
    (hi : olds[i]? = some (n, v)) (x : Bytes × Int) : x ∈ olds.eraseIdx i ↔ x ∈ olds ∧ x.1 ≠ n := by
  induction olds generalizing i with
  | nil => simp at hi
  | cons o os ih =>
    rw [List.map_cons, List.nodup_cons] at hn
    cases i with
    | zero =>
      simp at hi
      subst hi
      simp only [List.eraseIdx_cons_zero, List.mem_cons]
      constructor
      · intro h
        exact ⟨.inr h, fun e => hn.1 (by show n ∈ _; rw [← e]; exact List.mem_map_of_mem (f := Prod.fst) h)⟩
      · rintro ⟨h | h, h2⟩
        · subst h; exact absurd rfl h2
        · exact h
    | succ i =>
      simp at hi
      simp only [List.eraseIdx_cons_succ, List.mem_cons, ih hn.2 hi]
      constructor
      · rintro (h | h)
        · subst h
          refine ⟨.inl rfl, fun e => hn.1 ?_⟩
          rw [e]
          exact List.mem_map_of_mem (f := Prod.fst) (List.mem_of_getElem? hi)
        · exact ⟨.inr h.1, h.2⟩
      · rintro ⟨h | h, h2⟩
        · exact .inl h
        · exact .inr ⟨h, h2⟩

/-- `get_old_if` of a name that is in the table. -/
theorem getOldIf_mem {olds : List (Bytes × Int)} {n : Bytes} (h : n ∈ olds.map Prod.fst) :
    ∃ i v, getOldIf olds n = (some i, olds) ∧ olds[i]? = some (n, v) := by
  unfold getOldIf
  cases hf : olds.findIdx? (fun o => o.1 == n) with
  | none =>
    rw [List.findIdx?_eq_none_iff] at hf
    obtain ⟨o, ho, e⟩ := List.mem_map.1 h
    have := hf o ho
    simp [e] at this
  | some i =>
    rw [List.findIdx?_eq_some_iff_getElem] at hf
    obtain ⟨h1, h2, _⟩ := hf
    refine ⟨i, olds[i].2, rfl, ?_⟩
    simp only [beq_iff_eq] at h2
    rw [List.getElem?_eq_getElem h1]
    rw [← h2]

theorem getOldIf_new {olds : List (Bytes × Int)} {n : Bytes} (h : n ∉ olds.map Prod.fst) (hl : olds.length < 1024) :
    getOldIf olds n = (some olds.length, olds ++ [(n, -1)]) := by
  unfold getOldIf
  have : olds.findIdx? (fun o => o.1 == n) = none := by
    rw [List.findIdx?_eq_none_iff]
    intro o ho
    simp only [beq_eq_false_iff_ne, ne_eq]
    exact fun e => h (e ▸ List.mem_map_of_mem ho)
  rw [this]
  dsimp only
  rw [if_neg (by unfold MAX_INTERFACES; omega)]

theorem writeProc_ok {p : Proc} {c : Ctl} {w : Nat} (h : p.val c = some w) (hr : p.ro c = false) (v : Nat) :
    writeProc p c v = (true, { p with val := fun x => if x = c then some v else p.val x }) := by
  unfold writeProc
  rw [if_neg (by simp [h, hr])]

theorem writeProc_none {p : Proc} {c : Ctl} (h : p.val c = none) (v : Nat) : writeProc p c v = (false, p) := by
  unfold writeProc
  rw [if_pos (by simp [h])]

/-! ### The invariant -/

structure Globals (o : Ctl → Option Nat) (h : Host) : Prop where
  ro : ∀ c, h.proc.ro c = false
  set : ∃ a b c d : Nat, h.settings = [⟨.forward6, 1, a⟩, ⟨.forward4, 1, b⟩, ⟨.redirects6, 0, c⟩, ⟨.rpAll, 0, d⟩] ∧
    o .forward6 = some a ∧ o .forward4 = some b ∧ o .redirects6 = some c ∧ o .rpAll = some d
  f6 : h.proc.val .forward6 = some 1
  f4 : h.proc.val .forward4 = some 1
  r6 : h.proc.val .redirects6 = some 0
  rp : h.proc.val .rpAll = some 0

structure HInv (o : Ctl → Option Nat) (h : Host) : Prop where
  glob : Globals o h
  names : (h.ifs.map HostIf.name).Nodup
  len : h.ifs.length ≤ 1024
  short : ∀ f ∈ h.ifs, f.name.length ≤ 15
  idx : ∀ f ∈ h.ifs, f.up = true → 0 < f.ifindex
  nodup : (h.olds.map Prod.fst).Nodup
  keys : ∀ n, n ∈ h.olds.map Prod.fst ↔ ∃ f ∈ h.ifs, f.name = n ∧ f.up = true
  used : ∀ n v, (n, v) ∈ h.olds → (o (.rp n) = none ∧ h.proc.val (.rp n) = none) ∨
    ∃ w : Nat, v = w ∧ o (.rp n) = some w ∧ h.proc.val (.rp n) = some 0
  free : ∀ n, n ∉ h.olds.map Prod.fst → h.proc.val (.rp n) = o (.rp n)

/-! ### Updates of the list of interfaces -/

theorem nodup_sub_length {α : Type _} [BEq α] [LawfulBEq α] {l m : List α} (h : l.Nodup) (hs : ∀ x ∈ l, x ∈ m) : l.length ≤ m.length := by
  induction l generalizing m with
  | nil => exact Nat.zero_le _
  | cons a l ih =>
    rw [List.nodup_cons] at h
    have ha : a ∈ m := hs a List.mem_cons_self
    have := ih (m := m.erase a) h.2 fun x hx => (List.mem_erase_of_ne (by rintro rfl; exact h.1 hx)).2 (hs x (List.mem_cons_of_mem _ hx))
    rw [List.length_erase_of_mem ha] at this
    have := List.length_pos_of_mem ha
    simp only [List.length_cons]
    omega

/-- One interface is changed. -/
def updIf (ifs : List HostIf) (name : Bytes) (g : HostIf → HostIf) : List HostIf := ifs.map fun f => if f.name = name then g f else f

theorem updIf_names {ifs : List HostIf} {name : Bytes} {g : HostIf → HostIf} (hg : ∀ f, (g f).name = f.name) :
    (updIf ifs name g).map HostIf.name = ifs.map HostIf.name := by
  unfold updIf
  rw [List.map_map]
  apply List.map_congr_left
  intro f _
  simp only [Function.comp]
  split
  · exact hg f
  · rfl

theorem eq_of_name {ifs : List HostIf} (hn : (ifs.map HostIf.name).Nodup) {f g : HostIf} (hf : f ∈ ifs) (hg : g ∈ ifs) (e : f.name = g.name) : f = g := by
  induction ifs with
  | nil => cases hf
  | cons a l ih =>
    rw [List.map_cons, List.nodup_cons] at hn
    rcases List.mem_cons.1 hf with h1 | h1 <;> rcases List.mem_cons.1 hg with h2 | h2
    · rw [h1, h2]
    · exact absurd (by rw [← h1, e]; exact List.mem_map_of_mem h2) hn.1
    · exact absurd (by rw [← h2, ← e]; exact List.mem_map_of_mem h1) hn.1
    · exact ih hn.2 h1 h2

theorem mem_updIf {ifs : List HostIf} (hn : (ifs.map HostIf.name).Nodup) {f : HostIf} (hf : f ∈ ifs) {g : HostIf → HostIf} {x : HostIf} :
    x ∈ updIf ifs f.name g ↔ x = g f ∨ (x ∈ ifs ∧ x.name ≠ f.name) := by
  unfold updIf
  rw [List.mem_map]
  constructor
  · rintro ⟨y, hy, e⟩
    by_cases h : y.name = f.name
    · rw [if_pos h] at e
      rw [eq_of_name hn hy hf h] at e
      exact .inl e.symm
    · rw [if_neg h] at e
      subst e
      exact .inr ⟨hy, h⟩
  · rintro (h | ⟨h, h2⟩)
    · exact ⟨f, hf, by rw [if_pos rfl, h]⟩
    · exact ⟨x, h, by rw [if_neg h2]⟩

/-! ### Going up and down -/

theorem HInv.key_up {o : Ctl → Option Nat} {h : Host} (hi : HInv o h) {f : HostIf} (hf : f ∈ h.ifs) : f.name ∈ h.olds.map Prod.fst ↔ f.up = true := by
  rw [hi.keys]
  constructor
  · rintro ⟨g, hg, e, hu⟩
    rw [← eq_of_name hi.names hg hf e]
    exact hu
  · exact fun hu => ⟨f, hf, rfl, hu⟩

theorem Globals.upd {o : Ctl → Option Nat} {h : Host} (g : Globals o h) (olds : List (Bytes × Int)) (ifs : List HostIf) :
    Globals o { h with olds := olds, ifs := ifs } := ⟨g.ro, g.set, g.f6, g.f4, g.r6, g.rp⟩

theorem Globals.write {o : Ctl → Option Nat} {h : Host} (g : Globals o h) (olds : List (Bytes × Int)) (ifs : List HostIf) (n : Bytes) (v : Option Nat) :
    Globals o { h with olds := olds, ifs := ifs, proc := { h.proc with val := fun x => if x = .rp n then v else h.proc.val x } } :=
  ⟨g.ro, g.set, by simpa using g.f6, by simpa using g.f4, by simpa using g.r6, by simpa using g.rp⟩

theorem hostDown_inv {o : Ctl → Option Nat} {h : Host} (hi : HInv o h) {f : HostIf} (hf : f ∈ h.ifs) (hu : f.up = true) :
    HInv o (hostDown false h f) ∧ (hostDown false h f).ifs = updIf h.ifs f.name (fun f => { f with up := false }) := by
  have hx := hi.idx f hf hu
  have hs := hi.short f hf
  obtain ⟨i, v, h1, h2⟩ := getOldIf_mem ((hi.key_up hf).2 hu)
  have hil : i < h.olds.length := (List.getElem?_eq_some_iff.1 h2).1
  have hm : (f.name, v) ∈ h.olds := List.mem_of_getElem? h2
  have hmem : ∀ x, x ∈ freeOldIf h.olds i ↔ x ∈ h.olds ∧ x.1 ≠ f.name := fun x =>
    (freeOldIf_perm hil).mem_iff.trans (mem_eraseIdx_nodup hi.nodup h2 x)
  have hkeys : ∀ n, n ∈ (freeOldIf h.olds i).map Prod.fst ↔ n ∈ h.olds.map Prod.fst ∧ n ≠ f.name := by
    intro n
    simp only [List.mem_map, hmem]
    constructor
    · rintro ⟨x, ⟨h3, h4⟩, rfl⟩
      exact ⟨⟨x, h3, rfl⟩, h4⟩
    · rintro ⟨⟨x, h3, rfl⟩, h4⟩
      exact ⟨x, ⟨h3, h4⟩, rfl⟩
  have hnd : ((freeOldIf h.olds i).map Prod.fst).Nodup :=
    ((freeOldIf_perm hil).map Prod.fst).nodup_iff.2 (hi.nodup.sublist ((List.eraseIdx_sublist _ _).map _))
  obtain ⟨p, hp, hw⟩ : ∃ p, (p = h.proc ∨ ∃ w, p = { h.proc with val := fun x => if x = .rp f.name then w else h.proc.val x }) ∧
      hostDown false h f = { h with olds := freeOldIf h.olds i, ifs := updIf h.ifs f.name (fun f => { f with up := false }), proc := p } ∧
      p.val (.rp f.name) = o (.rp f.name) := by
    unfold hostDown restoreIf
    dsimp only
    rw [if_pos hx, if_neg (by decide), if_neg (by omega)]
    have h1' : getOldIf (setUp h f.name false).olds f.name = (some i, h.olds) := h1
    rw [h1']
    dsimp only
    rw [h2]
    simp only [Option.map_some, Option.getD_some]
    rcases hi.used _ _ hm with ⟨h3, h4⟩ | ⟨w, rfl, h3, h4⟩
    · refine ⟨h.proc, .inl rfl, ?_, by rw [h3, h4]⟩
      have : (writeProc (setUp h f.name false).proc (.rp f.name) v.toNat).2 = h.proc := by
        rw [writeProc_none (p := (setUp h f.name false).proc) h4]; rfl
      rw [this]
      show _ = _
      have e : (if v > 0 then h.proc else (setUp h f.name false).proc) = h.proc := by split <;> rfl
      rw [e]
      rfl
    · by_cases hw : (w : Int) > 0
      · rw [if_pos hw, writeProc_ok (p := (setUp h f.name false).proc) h4 (hi.glob.ro _)]
        exact ⟨_, .inr ⟨some w, rfl⟩, rfl, by simp [h3]⟩
      · rw [if_neg hw]
        have : w = 0 := by omega
        subst this
        exact ⟨_, .inl rfl, rfl, by rw [h4, h3]⟩
  rw [hw.1]
  refine ⟨⟨?_, ?_, ?_, ?_, ?_, hnd, ?_, ?_, ?_⟩, rfl⟩
  · rcases hp with rfl | ⟨w, rfl⟩
    · exact hi.glob.upd _ _
    · exact hi.glob.write _ _ _ _
  · show (List.map _ _).Nodup
    have := updIf_names (ifs := h.ifs) (name := f.name) (g := fun f => { f with up := false }) (fun _ => rfl)
    exact this ▸ hi.names
  · show (List.map _ _).length ≤ _
    rw [List.length_map]; exact hi.len
  · intro x hx
    rcases (mem_updIf hi.names hf).1 hx with rfl | ⟨h3, _⟩
    · exact hs
    · exact hi.short x h3
  · intro x hx hxu
    rcases (mem_updIf hi.names hf).1 hx with rfl | ⟨h3, _⟩
    · exact absurd hxu Bool.false_ne_true
    · exact hi.idx x h3 hxu
  · intro n
    show n ∈ (freeOldIf h.olds i).map Prod.fst ↔ ∃ x ∈ updIf _ _ _, _
    rw [hkeys, hi.keys]
    constructor
    · rintro ⟨⟨x, h3, h4, h5⟩, h6⟩
      exact ⟨x, (mem_updIf hi.names hf).2 (.inr ⟨h3, h4 ▸ h6⟩), h4, h5⟩
    · rintro ⟨x, h3, h4, h5⟩
      rcases (mem_updIf hi.names hf).1 h3 with rfl | ⟨h6, h7⟩
      · exact absurd h5 Bool.false_ne_true
      · exact ⟨⟨x, h6, h4, h5⟩, h4 ▸ h7⟩
  · intro n v' hv
    obtain ⟨h3, h4⟩ := (hmem _).1 hv
    have h4 : n ≠ f.name := h4
    have e : p.val (.rp n) = h.proc.val (.rp n) := by
      rcases hp with rfl | ⟨w, rfl⟩
      · rfl
      · simp [h4]
    show (_ ∧ p.val _ = _) ∨ ∃ w : Nat, _ ∧ _ ∧ p.val _ = _
    rw [e]
    exact hi.used n v' h3
  · intro n hnn
    show p.val _ = _
    by_cases h4 : n = f.name
    · subst h4; exact hw.2
    have e : p.val (.rp n) = h.proc.val (.rp n) := by
      rcases hp with rfl | ⟨w, rfl⟩
      · rfl
      · simp [h4]
    rw [e]
    exact hi.free n fun h5 => hnn ((hkeys n).2 ⟨h5, h4⟩)

theorem HInv.olds_length {o : Ctl → Option Nat} {h : Host} (hi : HInv o h) {f : HostIf} (hf : f ∈ h.ifs) (hu : f.up = false) :
    f.name ∉ h.olds.map Prod.fst ∧ h.olds.length < 1024 := by
  have hn : f.name ∉ h.olds.map Prod.fst := fun hk => by rw [(hi.key_up hf).1 hk] at hu; cases hu
  refine ⟨hn, ?_⟩
  have : (f.name :: h.olds.map Prod.fst).length ≤ (h.ifs.map HostIf.name).length := by
    apply nodup_sub_length (List.nodup_cons.2 ⟨hn, hi.nodup⟩)
    intro x hx
    rcases List.mem_cons.1 hx with rfl | hx
    · exact List.mem_map_of_mem hf
    · obtain ⟨g, hg, e, _⟩ := (hi.keys x).1 hx
      exact e ▸ List.mem_map_of_mem hg
  simp only [List.length_cons, List.length_map] at this
  have := hi.len
  omega

theorem setupIf_inv {o : Ctl → Option Nat} {h : Host} (hi : HInv o h) {f : HostIf} (hf : f ∈ h.ifs) (hu : f.up = false) (hx : 0 < f.ifindex) :
    ∃ r, setupIf false (setUp h f.name true) f.name = some r ∧ HInv o r.2 ∧ r.2.ifs = updIf h.ifs f.name (fun f => { f with up := true }) ∧
      (r.1 = true ↔ o (.rp f.name) ≠ none) := by
  have hs := hi.short f hf
  obtain ⟨hn, hl⟩ := hi.olds_length hf hu
  have h1 : getOldIf (setUp h f.name true).olds f.name = _ := getOldIf_new hn hl
  obtain ⟨ok, p, hp, hw, hp2, hok⟩ : ∃ ok p, (p = h.proc ∨ ∃ w, p = { h.proc with val := fun x => if x = .rp f.name then w else h.proc.val x }) ∧
      setupIf false (setUp h f.name true) f.name = some (ok, Host.mk p h.settings (h.olds ++ [(f.name, readProc h.proc (.rp f.name))])
        (updIf h.ifs f.name (fun f => { f with up := true }))) ∧
      ((o (.rp f.name) = none ∧ p.val (.rp f.name) = none) ∨
        ∃ w : Nat, readProc h.proc (.rp f.name) = w ∧ o (.rp f.name) = some w ∧ p.val (.rp f.name) = some 0) ∧
      (ok = true ↔ o (.rp f.name) ≠ none) := by
    unfold setupIf
    rw [if_neg (by decide), if_neg (by omega), h1]
    dsimp only
    have e1 : (h.olds ++ [(f.name, (-1 : Int))]).set h.olds.length (f.name, readProc (setUp h f.name true).proc (.rp f.name)) =
        h.olds ++ [(f.name, readProc h.proc (.rp f.name))] := by
      rw [List.set_append_right _ _ (Nat.le_refl _), Nat.sub_self]; rfl
    have e1' : ((setUp h f.name true).olds ++ [(f.name, (-1 : Int))]).set h.olds.length (f.name, readProc (setUp h f.name true).proc (.rp f.name)) = _ := e1
    have e0 : (setUp h f.name true).olds = h.olds := rfl
    rw [e0, e1]
    have hfree := hi.free _ hn
    cases hv : o (.rp f.name) with
    | none =>
      have h2 : readProc (setUp h f.name true).proc (.rp f.name) = -1 := by
        show readProc h.proc _ = _
        unfold readProc; rw [hfree, hv]
      rw [if_pos (by rw [h2]; decide), writeProc_none (p := (setUp h f.name true).proc) (by rw [← hv]; exact hfree)]
      exact ⟨_, _, .inl rfl, rfl, .inl ⟨rfl, by rw [← hv]; exact hfree⟩, by simp⟩
    | some w =>
      have h2 : readProc h.proc (.rp f.name) = w := by
        unfold readProc; rw [hfree, hv]
      by_cases hw : w = 0
      · rw [if_neg (by show ¬ readProc h.proc _ ≠ 0; rw [h2, hw]; decide)]
        exact ⟨_, _, .inl rfl, rfl, .inr ⟨w, h2, rfl, by show h.proc.val _ = _; rw [hfree, hv, hw]⟩, by simp⟩
      · rw [if_pos (by show readProc h.proc _ ≠ 0; rw [h2]; omega), writeProc_ok (p := (setUp h f.name true).proc) (hfree.trans hv) (hi.glob.ro _)]
        exact ⟨_, _, .inr ⟨some 0, rfl⟩, rfl, .inr ⟨w, h2, rfl, by simp⟩, by simp⟩
  refine ⟨_, hw, ⟨?_, ?_, ?_, ?_, ?_, ?_, ?_, ?_, ?_⟩, rfl, hok⟩
  · rcases hp with rfl | ⟨w, rfl⟩
    · exact hi.glob.upd _ _
    · exact hi.glob.write _ _ _ _
  · have := updIf_names (ifs := h.ifs) (name := f.name) (g := fun f => { f with up := true }) (fun _ => rfl)
    exact this ▸ hi.names
  · show (List.map _ _).length ≤ _
    rw [List.length_map]; exact hi.len
  · intro x hx
    rcases (mem_updIf hi.names hf).1 hx with rfl | ⟨h3, _⟩
    · exact hs
    · exact hi.short x h3
  · intro x hx' hxu
    rcases (mem_updIf hi.names hf).1 hx' with rfl | ⟨h3, _⟩
    · exact hx
    · exact hi.idx x h3 hxu
  · show ((h.olds ++ _).map Prod.fst).Nodup
    rw [List.map_append, List.nodup_append]
    refine ⟨hi.nodup, by simp, ?_⟩
    intro a ha b hb e
    simp at hb
    exact hn (hb ▸ e ▸ ha)
  · intro n
    show n ∈ (h.olds ++ _).map Prod.fst ↔ ∃ x ∈ updIf _ _ _, _
    rw [List.map_append, List.mem_append, hi.keys]
    constructor
    · rintro (⟨x, h3, h4, h5⟩ | h3)
      · refine ⟨x, (mem_updIf hi.names hf).2 (.inr ⟨h3, fun e => ?_⟩), h4, h5⟩
        rw [eq_of_name hi.names h3 hf e, hu] at h5; cases h5
      · simp at h3
        exact ⟨{ f with up := true }, (mem_updIf hi.names hf).2 (.inl rfl), h3.symm, rfl⟩
    · rintro ⟨x, h3, h4, h5⟩
      rcases (mem_updIf hi.names hf).1 h3 with rfl | ⟨h6, h7⟩
      · exact .inr (by simp; exact h4.symm)
      · exact .inl ⟨x, h6, h4, h5⟩
  · intro n v' hv
    show (_ ∧ p.val _ = _) ∨ ∃ w : Nat, _ ∧ _ ∧ p.val _ = _
    rcases List.mem_append.1 hv with hv | hv
    · have h4 : n ≠ f.name := fun e => hn (e ▸ List.mem_map_of_mem (f := Prod.fst) hv)
      have e : p.val (.rp n) = h.proc.val (.rp n) := by
        rcases hp with rfl | ⟨w, rfl⟩
        · rfl
        · simp [h4]
      rw [e]
      exact hi.used n v' hv
    · simp only [List.mem_singleton, Prod.mk.injEq] at hv
      obtain ⟨rfl, rfl⟩ := hv
      exact hp2
  · intro n hnn
    show p.val _ = _
    have hnn : n ∉ (h.olds ++ _).map Prod.fst := hnn
    rw [List.map_append, List.mem_append, not_or] at hnn
    have h4 : n ≠ f.name := by simpa using hnn.2
    have e : p.val (.rp n) = h.proc.val (.rp n) := by
      rcases hp with rfl | ⟨w, rfl⟩
      · rfl
      · simp [h4]
    rw [e]
    exact hi.free n hnn.1

theorem hostUp_inv {o : Ctl → Option Nat} {h : Host} (hi : HInv o h) {f : HostIf} (hf : f ∈ h.ifs) (hu : f.up = false) (hx : 0 < f.ifindex) (ok : Bool) :
    ∃ h', hostUp false h f ok = some h' ∧ HInv o h' ∧
      ({ f with up := ok && (o (.rp f.name)).isSome } : HostIf) ∈ h'.ifs := by
  obtain ⟨r, h1, h2, h3, h4⟩ := setupIf_inv hi hf hu hx
  unfold hostUp
  dsimp only
  rw [if_neg (by omega), h1, Option.map_some]
  refine ⟨_, rfl, ?_⟩
  have hm : ({ f with up := true } : HostIf) ∈ r.2.ifs := by rw [h3]; exact (mem_updIf hi.names hf).2 (.inl rfl)
  split
  · rename_i ht
    simp only [Bool.and_eq_true] at ht
    refine ⟨h2, ?_⟩
    rw [ht.2, Option.isSome_iff_ne_none.2 (h4.1 ht.1)]
    exact hm
  · rename_i ht
    obtain ⟨h5, h6⟩ := hostDown_inv h2 hm rfl
    refine ⟨h5, ?_⟩
    have e : (ok && (o (.rp f.name)).isSome) = false := by
      rw [← Bool.not_eq_true]
      intro hc
      simp only [Bool.and_eq_true] at hc ht
      exact ht ⟨h4.2 (Option.isSome_iff_ne_none.1 hc.2), hc.1⟩
    rw [e]
    have : hostDown false r.2 f = hostDown false r.2 { f with up := true } := rfl
    rw [this, h6]
    exact (mem_updIf h2.names hm).2 (.inl rfl)

theorem setIndex_inv {o : Ctl → Option Nat} {h : Host} (hi : HInv o h) {f : HostIf} (hf : f ∈ h.ifs) (index : Nat) (hx : f.up = true → 0 < index) :
    HInv o (setIndex h f.name index) ∧ { f with ifindex := index } ∈ (setIndex h f.name index).ifs := by
  have hm := fun x => @mem_updIf h.ifs hi.names f hf (fun f => { f with ifindex := index }) x
  refine ⟨⟨hi.glob.upd _ _, ?_, ?_, ?_, ?_, hi.nodup, ?_, hi.used, hi.free⟩, (hm _).2 (.inl rfl)⟩
  · have := updIf_names (ifs := h.ifs) (name := f.name) (g := fun f => { f with ifindex := index }) (fun _ => rfl)
    exact this ▸ hi.names
  · show (List.map _ _).length ≤ _
    rw [List.length_map]; exact hi.len
  · intro x hx
    rcases (hm _).1 hx with rfl | ⟨h3, _⟩
    · exact hi.short f hf
    · exact hi.short x h3
  · intro x hx' hxu
    rcases (hm _).1 hx' with rfl | ⟨h3, _⟩
    · exact hx hxu
    · exact hi.idx x h3 hxu
  · intro n
    refine (hi.keys n).trans ⟨?_, ?_⟩
    · rintro ⟨x, h3, h4, h5⟩
      by_cases e : x.name = f.name
      · have := eq_of_name hi.names h3 hf e
        subst this
        exact ⟨_, (hm _).2 (.inl rfl), h4, h5⟩
      · exact ⟨x, (hm _).2 (.inr ⟨h3, e⟩), h4, h5⟩
    · rintro ⟨x, h3, h4, h5⟩
      rcases (hm _).1 h3 with rfl | ⟨h6, h7⟩
      · exact ⟨f, hf, h4, h5⟩
      · exact ⟨x, h6, h4, h5⟩

/-- The interface `name` as it is after it was checked. -/
def checked (o : Ctl → Option Nat) (f : HostIf) (index : Nat) (op ok : Bool) : HostIf :=
  ⟨f.name, index, decide (0 < index) && op && ((f.up && index == f.ifindex) || (ok && (o (.rp f.name)).isSome))⟩

theorem hostCheck_inv {o : Ctl → Option Nat} {h : Host} (hi : HInv o h) (name : Bytes) (index : Nat) (op ok : Bool) :
    ∃ h', hostCheck false h name index op ok = some h' ∧ HInv o h' ∧ ∀ f ∈ h.ifs, f.name = name → checked o f index op ok ∈ h'.ifs := by
  unfold hostCheck
  cases hfd : h.ifs.find? (fun f => f.name = name) with
  | none =>
    refine ⟨h, rfl, hi, fun f hf e => ?_⟩
    have := List.find?_eq_none.1 hfd f hf
    simp [e] at this
  | some f =>
    have hf := List.mem_of_find?_eq_some hfd
    have hnm : f.name = name := by simpa using List.find?_some hfd
    subst hnm
    dsimp only
    suffices hh : ∃ h', _ = some h' ∧ HInv o h' ∧ checked o f index op ok ∈ h'.ifs by
      obtain ⟨h', h1, h2, h3⟩ := hh
      exact ⟨h', h1, h2, fun g hg e => eq_of_name hi.names hg hf e ▸ h3⟩
    by_cases hc : index ≠ f.ifindex
    · -- the index has changed: the interface is down
      have hd : HInv o (if index ≠ f.ifindex ∧ f.up = true then hostDown false h f else h) ∧
          { f with up := false } ∈ (if index ≠ f.ifindex ∧ f.up = true then hostDown false h f else h).ifs := by
        by_cases hu : f.up = true
        · rw [if_pos ⟨hc, hu⟩]
          obtain ⟨h1, h2⟩ := hostDown_inv hi hf hu
          exact ⟨h1, by rw [h2]; exact (mem_updIf hi.names hf).2 (.inl rfl)⟩
        · rw [if_neg fun h => hu h.2]
          have : f.up = false := by simpa using hu
          exact ⟨hi, by rw [← this]; exact hf⟩
      generalize (if index ≠ f.ifindex ∧ f.up = true then hostDown false h f else h) = h2 at hd
      obtain ⟨h3, h4⟩ := setIndex_inv hd.1 hd.2 index (fun e => absurd e Bool.false_ne_true)
      rw [if_pos hc]
      by_cases hw : (decide (0 < index) && op) = true
      · rw [if_neg (by rw [hw]; decide), if_pos hw]
        have e : checked o f index op ok = ⟨f.name, index, ok && (o (.rp f.name)).isSome⟩ := by
          unfold checked; rw [hw]; simp [hc]
        rw [e]
        simp only [Bool.and_eq_true, decide_eq_true_eq] at hw
        exact hostUp_inv h3 h4 rfl hw.1 ok
      · have hw : (decide (0 < index) && op) = false := by simpa using hw
        rw [if_pos hw]
        refine ⟨_, rfl, h3, ?_⟩
        have e : checked o f index op ok = ⟨f.name, index, false⟩ := by
          unfold checked; rw [hw]; rfl
        rw [e]
        exact h4
    · rw [if_neg (show ¬ (index ≠ f.ifindex ∧ f.up = true) from fun h => hc h.1), if_neg hc]
      have hc : index = f.ifindex := Classical.not_not.1 hc
      obtain ⟨h3, h4⟩ := setIndex_inv hi hf index (fun hu => hc ▸ hi.idx f hf hu)
      by_cases hw : (decide (0 < index) && op) = f.up
      · rw [if_pos hw]
        refine ⟨_, rfl, h3, ?_⟩
        have e : checked o f index op ok = { f with ifindex := index } := by
          unfold checked; rw [hw]
          cases hfu : f.up <;> simp [hc]
        rw [e]
        exact h4
      · rw [if_neg hw]
        by_cases hw2 : (decide (0 < index) && op) = true
        · rw [if_pos hw2]
          have hu : f.up = false := by
            cases hfu : f.up with
            | false => rfl
            | true => exact absurd (hw2.trans hfu.symm) hw
          have h5 := hw2
          simp only [Bool.and_eq_true, decide_eq_true_eq] at h5
          have e : checked o f index op ok = ⟨f.name, index, ok && (o (.rp f.name)).isSome⟩ := by
            unfold checked; rw [hw2, hu]; simp
          rw [e]
          exact hostUp_inv h3 h4 hu h5.1 ok
        · rw [if_neg hw2]
          have hu : f.up = true := by
            cases hfu : f.up with
            | true => rfl
            | false => exact absurd ((by simpa using hw2 : (decide (0 < index) && op) = false).trans hfu.symm) hw
          obtain ⟨h5, h6⟩ := hostDown_inv h3 h4 hu
          refine ⟨_, rfl, h5, ?_⟩
          have e : checked o f index op ok = ⟨f.name, index, false⟩ := by
            unfold checked; rw [(by simpa using hw2 : (decide (0 < index) && op) = false)]; rfl
          rw [e]
          have : (hostDown false (setIndex h f.name index) ⟨f.name, index, f.up⟩).ifs = _ := h6
          rw [this]
          exact (mem_updIf h3.names h4).2 (.inl rfl)

theorem hostStep_inv {o : Ctl → Option Nat} {h : Host} (hi : HInv o h) {ev : HostEv} (hev : FairHost h ev) :
    ∃ h', hostStep false h ev = some h' ∧ HInv (own o ev) h' := by
  cases ev with
  | check name index op ok =>
    obtain ⟨h', h1, h2, _⟩ := hostCheck_inv hi name index op ok
    exact ⟨h', h1, h2⟩
  | add name =>
    refine ⟨_, rfl, ?_⟩
    show HInv o _
    by_cases ha : h.ifs.any (fun f => f.name = name) = true
    · rw [if_pos ha]; exact hi
    · rw [if_neg ha]
      have ha : ∀ f ∈ h.ifs, f.name ≠ name := by simpa using ha
      refine ⟨hi.glob.upd _ _, ?_, ?_, ?_, ?_, hi.nodup, ?_, hi.used, hi.free⟩
      · show ((h.ifs ++ _).map _).Nodup
        rw [List.map_append, List.nodup_append]
        refine ⟨hi.names, by simp, ?_⟩
        intro a h1 b hb e
        simp at hb
        obtain ⟨f, hf, rfl⟩ := List.mem_map.1 h1
        exact ha f hf (e.trans hb)
      · show (h.ifs ++ _).length ≤ _
        have := hev.2
        simp; omega
      · intro f hf
        rcases List.mem_append.1 hf with hf | hf
        · exact hi.short f hf
        · simp at hf; subst hf; exact hev.1
      · intro f hf hu
        rcases List.mem_append.1 hf with hf | hf
        · exact hi.idx f hf hu
        · simp at hf; subst hf; cases hu
      · intro n
        refine (hi.keys n).trans ⟨?_, ?_⟩
        · rintro ⟨f, hf, e⟩
          exact ⟨f, List.mem_append_left _ hf, e⟩
        · rintro ⟨f, hf, e, hu⟩
          rcases List.mem_append.1 hf with hf | hf
          · exact ⟨f, hf, e, hu⟩
          · simp at hf; subst hf; cases hu
  | flush name =>
    unfold hostStep
    dsimp only
    show ∃ h', _ ∧ HInv o h'
    cases hfd : h.ifs.find? (fun f => f.name = name) with
    | none => exact ⟨h, rfl, hi⟩
    | some f =>
      have hf := List.mem_of_find?_eq_some hfd
      have hnm : f.name = name := by simpa using List.find?_some hfd
      subst hnm
      dsimp only
      have hd : HInv o (if f.up = true then hostDown false h f else h) ∧
          { f with up := false } ∈ (if f.up = true then hostDown false h f else h).ifs := by
        by_cases hu : f.up = true
        · rw [if_pos hu]
          obtain ⟨h1, h2⟩ := hostDown_inv hi hf hu
          exact ⟨h1, by rw [h2]; exact (mem_updIf hi.names hf).2 (.inl rfl)⟩
        · rw [if_neg hu]
          have : f.up = false := by simpa using hu
          exact ⟨hi, by rw [← this]; exact hf⟩
      generalize (if f.up = true then hostDown false h f else h) = h2 at hd
      obtain ⟨h3, h4⟩ := hd
      refine ⟨_, rfl, h3.glob.upd _ _, ?_, ?_, ?_, ?_, h3.nodup, ?_, h3.used, h3.free⟩
      · exact h3.names.sublist (List.filter_sublist.map _)
      · exact Nat.le_trans (List.length_filter_le _ _) h3.len
      · exact fun x hx => h3.short x (List.mem_filter.1 hx).1
      · exact fun x hx => h3.idx x (List.mem_filter.1 hx).1
      · intro n
        refine (h3.keys n).trans ⟨?_, ?_⟩
        · rintro ⟨x, hx, e, hu⟩
          refine ⟨x, List.mem_filter.2 ⟨hx, ?_⟩, e, hu⟩
          simp only [ne_eq, decide_eq_true_eq]
          intro e2
          have := eq_of_name h3.names hx h4 e2
          subst this
          cases hu
        · rintro ⟨x, hx, e⟩
          exact ⟨x, (List.mem_filter.1 hx).1, e⟩
  | host c v =>
    obtain ⟨name, rfl, hv⟩ := hev
    refine ⟨_, rfl, ?_, hi.names, hi.len, hi.short, hi.idx, hi.nodup, hi.keys, ?_, ?_⟩
    · have := hi.glob.write h.olds h.ifs name v
      obtain ⟨a, b, c, d, h1, h2⟩ := this.set
      exact ⟨this.ro, ⟨a, b, c, d, h1, by simpa [own] using h2⟩, this.f6, this.f4, this.r6, this.rp⟩
    · intro n w hw
      by_cases e : n = name
      · subst e
        have := hv ((hi.keys n).1 (List.mem_map_of_mem (f := Prod.fst) hw))
        subst this
        exact .inl ⟨by simp [own], by simp⟩
      · have := hi.used n w hw
        simpa [own, e] using this
    · intro n hn
      by_cases e : n = name
      · subst e; simp [own]
      · have := hi.free n hn
        simpa [own, e] using this

theorem hostRun_inv {o : Ctl → Option Nat} {h : Host} (hi : HInv o h) {evs : List HostEv} (hf : FairRun h evs) :
    ∃ h', hostRun false h evs = some h' ∧ HInv (evs.foldl own o) h' := by
  induction evs generalizing o h with
  | nil => exact ⟨h, rfl, hi⟩
  | cons e es ih =>
    obtain ⟨h1, e1, hi1⟩ := hostStep_inv hi hf.1
    obtain ⟨h2, e2, hi2⟩ := ih hi1 (hf.2 h1 e1)
    refine ⟨h2, ?_, hi2⟩
    unfold hostRun
    rw [e1]
    exact e2

theorem setupLoop_cons (q : Proc) (s : Sysctl) (ss : List Sysctl) (w : Nat) (hw : q.val s.ctl = some w) (hr : ∀ c, q.ro c = false) :
    ∃ q', q'.val = (fun x => if x = s.ctl then some s.want else q.val x) ∧ (∀ c, q'.ro c = false) ∧
      setupLoop (s :: ss) q = ((setupLoop ss q').1, { s with was := w } :: (setupLoop ss q').2.1, (setupLoop ss q').2.2) := by
  conv => enter [1, q', 2, 2, 1]; unfold setupLoop
  have e : readProc q s.ctl = w := by unfold readProc; rw [hw]
  rw [e]
  dsimp only
  rw [if_neg (by omega)]
  by_cases hne : (w : Int) ≠ s.want
  · rw [if_pos hne, writeProc_ok hw (hr _)]
    exact ⟨{ q with val := fun x => if x = s.ctl then some s.want else q.val x }, rfl, hr, rfl⟩
  · rw [if_neg hne]
    refine ⟨q, ?_, hr, rfl⟩
    funext x
    by_cases hx : x = s.ctl
    · rw [if_pos hx, hx, hw]; congr 1; omega
    · rw [if_neg hx]

theorem setup_inv {p : Proc} (hr : ∀ c, p.ro c = false) {a b c d : Nat} (h1 : p.val .forward6 = some a) (h2 : p.val .forward4 = some b)
    (h3 : p.val .redirects6 = some c) (h4 : p.val .rpAll = some d) : ∃ h, kernelSetup false p = (true, h) ∧ HInv p.val h := by
  unfold kernelSetup sysctlSettings
  rw [if_neg (by decide)]
  obtain ⟨p1, v1, r1, e1⟩ := setupLoop_cons p ⟨.forward6, 1, -1⟩ [⟨.forward4, 1, -1⟩, ⟨.redirects6, 0, -1⟩, ⟨.rpAll, 0, -1⟩] a h1 hr
  obtain ⟨p2, v2, r2, e2⟩ := setupLoop_cons p1 ⟨.forward4, 1, -1⟩ [⟨.redirects6, 0, -1⟩, ⟨.rpAll, 0, -1⟩] b (by rw [v1]; simpa using h2) r1
  obtain ⟨p3, v3, r3, e3⟩ := setupLoop_cons p2 ⟨.redirects6, 0, -1⟩ [⟨.rpAll, 0, -1⟩] c (by rw [v2, v1]; simpa using h3) r2
  obtain ⟨p4, v4, r4, e4⟩ := setupLoop_cons p3 ⟨.rpAll, 0, -1⟩ [] d (by rw [v3, v2, v1]; simpa using h4) r3
  rw [e1, e2, e3, e4]
  refine ⟨_, rfl, ⟨r4, ⟨a, b, c, d, rfl, h1, h2, h3, h4⟩, ?_, ?_, ?_, ?_⟩, List.nodup_nil, by simp, (fun f hf => by cases hf), (fun f hf => by cases hf),
    List.nodup_nil, ?_, (fun n v hv => by cases hv), ?_⟩
  · show p4.val _ = _; rw [v4, v3, v2, v1]; simp
  · show p4.val _ = _; rw [v4, v3, v2, v1]; simp
  · show p4.val _ = _; rw [v4, v3, v2, v1]; simp
  · show p4.val _ = _; rw [v4, v3, v2, v1]; simp
  · intro n; simp
  · intro n _
    show p4.val _ = _; rw [v4, v3, v2, v1]; simp

/-- At the end all interfaces are down. -/
theorem downAll_inv {o : Ctl → Option Nat} {h : Host} (hi : HInv o h) :
    HInv o (h.ifs.foldl (fun h f => if f.up then hostDown false h f else h) h) ∧
      (h.ifs.foldl (fun h f => if f.up then hostDown false h f else h) h).olds = [] := by
  have gen : ∀ (l : List HostIf) (h : Host), HInv o h → (l.map HostIf.name).Nodup → (∀ f ∈ l, f ∈ h.ifs) →
      (∀ f ∈ h.ifs, f.up = true → f ∈ l) →
      HInv o (l.foldl (fun h f => if f.up then hostDown false h f else h) h) ∧
      (l.foldl (fun h f => if f.up then hostDown false h f else h) h).olds = [] := by
    intro l
    induction l with
    | nil =>
      intro h hi _ _ hu
      refine ⟨hi, ?_⟩
      cases ho : h.olds with
      | nil => exact ho
      | cons o os =>
        obtain ⟨f, hf, _, hfu⟩ := (hi.keys o.1).1 (by rw [ho]; simp)
        cases hu f hf hfu
    | cons f l ih =>
      intro h hi hn hl hu
      rw [List.map_cons, List.nodup_cons] at hn
      rw [List.foldl_cons]
      have hf := hl f List.mem_cons_self
      by_cases hfu : f.up = true
      · rw [if_pos hfu]
        obtain ⟨h1, h2⟩ := hostDown_inv hi hf hfu
        refine ih _ h1 hn.2 ?_ ?_
        · intro x hx
          rw [h2]
          exact (mem_updIf hi.names hf).2 (.inr ⟨hl x (List.mem_cons_of_mem _ hx), fun e => hn.1 (e ▸ List.mem_map_of_mem hx)⟩)
        · intro x hx hxu
          rw [h2] at hx
          rcases (mem_updIf hi.names hf).1 hx with rfl | ⟨h3, h4⟩
          · cases hxu
          · rcases List.mem_cons.1 (hu x h3 hxu) with e | e
            · exact absurd (e ▸ rfl) h4
            · exact e
      · rw [if_neg hfu]
        refine ih _ hi hn.2 (fun x hx => hl x (List.mem_cons_of_mem _ hx)) ?_
        intro x hx hxu
        rcases List.mem_cons.1 (hu x hx hxu) with e | e
        · subst e; exact absurd hxu hfu
        · exact e
  exact gen h.ifs h hi hi.names (fun _ h => h) (fun _ h _ => h)

theorem stop_own {o : Ctl → Option Nat} {h : Host} (hi : HInv o h) : (hostStop false h).proc.val = o := by
  obtain ⟨h1, h2⟩ := downAll_inv hi
  unfold hostStop
  generalize (h.ifs.foldl (fun h f => if f.up then hostDown false h f else h) h) = k at h1 h2
  unfold kernelRestore
  obtain ⟨a, b, c, d, e, ha, hb, hc, hd⟩ := h1.glob.set
  have key : ∀ (q : Proc) (s : Ctl) (want w : Nat) (ss : List Sysctl), q.val s = some want → (∀ c, q.ro c = false) →
      ∃ q', q'.val = (fun x => if x = s then some w else q.val x) ∧ (∀ c, q'.ro c = false) ∧
        restoreLoop (⟨s, want, w⟩ :: ss) q = restoreLoop ss q' := by
    intro q s want w ss hw hr
    conv => enter [1, q', 2, 2, 1]; unfold restoreLoop
    dsimp only
    by_cases hne : (w : Int) ≠ want
    · rw [show (if (w : Int) ≥ 0 ∧ (w : Int) ≠ want then writeProc q s (w : Int).toNat else (true, q)) = _ from
        (if_pos ⟨by omega, hne⟩).trans (writeProc_ok hw (hr _) _)]
      exact ⟨{ q with val := fun x => if x = s then some w else q.val x }, rfl, hr, rfl⟩
    · rw [show (if (w : Int) ≥ 0 ∧ (w : Int) ≠ want then writeProc q s (w : Int).toNat else (true, q)) = _ from
        if_neg fun h => hne h.2]
      refine ⟨q, ?_, hr, rfl⟩
      funext x
      by_cases hx : x = s
      · rw [if_pos hx, hx, hw]; congr 1; omega
      · rw [if_neg hx]
  dsimp only
  rw [if_neg (by decide)]
  show (restoreLoop k.settings k.proc).val = o
  rw [e]
  obtain ⟨p1, v1, r1, e1⟩ := key k.proc .forward6 1 a [⟨.forward4, 1, b⟩, ⟨.redirects6, 0, c⟩, ⟨.rpAll, 0, d⟩] h1.glob.f6 h1.glob.ro
  obtain ⟨p2, v2, r2, e2⟩ := key p1 .forward4 1 b [⟨.redirects6, 0, c⟩, ⟨.rpAll, 0, d⟩] (by rw [v1]; simpa using h1.glob.f4) r1
  obtain ⟨p3, v3, r3, e3⟩ := key p2 .redirects6 0 c [⟨.rpAll, 0, d⟩] (by rw [v2, v1]; simpa using h1.glob.r6) r2
  obtain ⟨p4, v4, r4, e4⟩ := key p3 .rpAll 0 d [] (by rw [v3, v2, v1]; simpa using h1.glob.rp) r3
  rw [e1, e2, e3, e4]
  show p4.val = o
  funext x
  rw [v4, v3, v2, v1]
  cases x with
  | rp n =>
    simp only [reduceCtorEq, if_false]
    exact h1.free n (by rw [h2]; simp)
  | _ => simp [ha, hb, hc, hd]

end Babel
