import Verif.Lemmas.Reject
import Verif.Props.Literals
/-
Values that are refused.
-/
set_option linter.unusedSimpArgs false
set_option linter.unusedVariables false
namespace Babel
open Spec

theorem badNum_word {lo hi : Nat} {w : Bytes} (h : BadNum lo hi w) : Word w := by
  cases h with
  | word h _ => exact h
  | range h _ _ => exact h.word
  | negative h hl _ _ => exact word_minus h.word (by omega)

theorem strtol_bad {lo hi : Nat} {w : Bytes} (h : BadNum lo hi w) :
    strtol w = none ∨ ∃ v, strtol w = some v ∧ longToInt v = v ∧ v ≤ 2147483647 ∧ (v < lo ∨ v > hi) := by
  cases h with
  | word h hn =>
    left
    rcases hs : strtol w with _ | v
    · rfl
    · exact absurd (strtol_inv h.2.1 h.1 hs) hn
  | @range w n h h2 h3 =>
    right
    refine ⟨n, strtol_text h (by omega), longToInt_of h2, by omega, ?_⟩
    omega
  | @negative w n h hl h1 h2 =>
    right
    refine ⟨_, strtol_neg h (by omega), longToInt_neg h1 h2, by omega, ?_⟩
    omega

theorem getint_bad {lo hi : Nat} {g w r : Bytes} (hg : ∀ c ∈ g, BlankC c) (h : BadNum lo hi w) (hr : Stop r) :
    getint (g ++ (w ++ r)) = .error .bad ∨ ∃ v : Int, getint (g ++ (w ++ r)) = .ok (v, r) ∧ v ≤ 2147483647 ∧ (v < lo ∨ v > hi) := by
  unfold getint
  rw [getword_text g w r hg (badNum_word h) hr]
  rcases strtol_bad h with e | ⟨v, e, e2, hv⟩
  · left
    show (match strtol w with
      | some i => Except.ok (longToInt i, r)
      | none => Except.error Fail.bad) = _
    rw [e]
  · right
    refine ⟨v, ?_, hv⟩
    show (match strtol w with
      | some i => Except.ok (longToInt i, r)
      | none => Except.error Fail.bad) = _
    rw [e]
    simp only [e2]

theorem getint_none {g w r : Bytes} (hg : ∀ c ∈ g, BlankC c) (h : Word w ∧ ¬ NumWord w) (hr : Stop r) :
    getint (g ++ (w ++ r)) = .error .bad := by
  unfold getint
  rw [getword_text g w r hg h.1 hr]
  show (match strtol w with
    | some i => Except.ok (longToInt i, r)
    | none => Except.error Fail.bad) = _
  rcases hs : strtol w with _ | v
  · rfl
  · exact absurd (strtol_inv h.1.2.1 h.1.1 hs) h.2

theorem badThou_word {lo hi : Nat} {w : Bytes} (h : BadThou lo hi w) : Word w := by
  cases h with
  | word h _ => exact h
  | range h _ _ => exact h.word

theorem getthousands_bad {lo hi : Nat} {g w r : Bytes} (hg : ∀ c ∈ g, BlankC c) (h : BadThou lo hi w) (hr : Stop r) :
    getthousands (g ++ (w ++ r)) = .error .bad ∨ ∃ v : Nat, getthousands (g ++ (w ++ r)) = .ok (v, r) ∧ v ≤ 2147482000 ∧ (v < lo ∨ v > hi) := by
  have hw := badThou_word h
  cases h with
  | word h hn =>
    left
    unfold getthousands
    rw [getword_text g w r hg hw hr]
    show (if parseThousands w < 0 then Except.error Fail.bad else Except.ok ((parseThousands w).toNat, r)) = _
    rw [if_pos]
    refine Classical.byContradiction fun hc => hn ?_
    obtain ⟨b₁, ds, tl, b₂, e, h1, h2, h3, h4⟩ := C06_thousands_reject w (by omega)
    have nb : ∀ b : Bytes, (∀ c ∈ b, c ∈ w) → (∀ c ∈ b, Blank c) → b = [] := by
      intro b hb hb2
      cases b with
      | nil => rfl
      | cons c b =>
        have c1 := hw.2.2.1 c (hb c (by simp))
        have c2 := hb2 c (by simp)
        unfold Blank at c2
        unfold BlankC at c1
        rcases c2 with rfl | rfl <;> simp at c1
    have e1 := nb b₁ (by intro c hc; rw [e]; simp [hc]) h1
    have e2 := nb b₂ (by intro c hc; rw [e]; simp [hc]) h3
    subst e1 e2
    rw [List.append_nil, List.nil_append] at e
    exact ⟨ds, tl, e, h2, h4⟩
  | @range n h h2 h3 => exact .inr ⟨n, getthousands_text hg h h2 hr, h2, by omega⟩

theorem keyword_none {α : Type} {l : List (String × α)} {w : Bytes} (h : ∀ p ∈ l, w ≠ ascii p.1) : keyword l w = none := by
  unfold keyword
  rw [Option.map_eq_none_iff, List.find?_eq_none]
  intro p hp
  simpa using fun e => h p hp e.symm

theorem getbool_bad {g w r : Bytes} (hg : ∀ c ∈ g, BlankC c) (h : BadBool w) (hr : Stop r) :
    getbool (g ++ (w ++ r)) = .error .bad := by
  unfold getbool
  rw [getword_text g w r hg h.1 hr]
  have : keyword boolWords w = none := by
    apply keyword_none
    intro p hp e
    simp only [boolWords, List.mem_cons, List.not_mem_nil, or_false] at hp
    rcases hp with rfl | rfl | rfl | rfl | rfl | rfl <;> subst e
    · exact h.2 _ .true
    · exact h.2 _ .yes
    · exact h.2 _ .false
    · exact h.2 _ .no
    · exact h.2 _ .default
    · exact h.2 _ .auto
  show (match keyword boolWords w with
    | some i => Except.ok (i, r)
    | none => Except.error Fail.bad) = _
  rw [this]

theorem getIfType_bad {g w r : Bytes} (hg : ∀ c ∈ g, BlankC c) (h : BadType w) (hr : Stop r) :
    getIfType (g ++ (w ++ r)) = .error .bad := by
  unfold getIfType
  rw [getword_text g w r hg h.1 hr]
  have : keyword typeWords w = none := by
    apply keyword_none
    intro p hp e
    simp only [typeWords, List.mem_cons, List.not_mem_nil, or_false] at hp
    rcases hp with rfl | rfl | rfl | rfl | rfl <;> subst e
    · exact h.2 _ .default
    · exact h.2 _ .auto
    · exact h.2 _ .wired
    · exact h.2 _ .wireless
    · exact h.2 _ .tunnel
  show (match keyword typeWords w with
    | some i => Except.ok (i, r)
    | none => Except.error Fail.bad) = _
  rw [this]

theorem getip_bad {L : Libc} {g w r : Bytes} (hg : ∀ c ∈ g, BlankC c) (h : BadAddr L w) (hr : Stop r) :
    getip L (g ++ (w ++ r)) = .error .bad := by
  unfold getip
  rw [getword_text g w r hg h.1 hr]
  show (match parseAddress L w with
    | some x => Except.ok (x, r)
    | none => Except.error Fail.bad) = _
  unfold parseAddress
  rw [h.2.1, h.2.2]

theorem getid_bad {L : Libc} {g w r : Bytes} (hg : ∀ c ∈ g, BlankC c) (h : BadId L w) (hr : Stop r) :
    getid L (g ++ (w ++ r)) = .error .bad := by
  unfold getid
  rw [getword_text g w r hg h.1 hr]
  show (match L.eui64 w with
    | some x => Except.ok (x, r)
    | none => Except.error Fail.bad) = _
  rw [h.2]

theorem gethex_bad {g w r : Bytes} (hg : ∀ c ∈ g, BlankC c) (h : BadHex w) (hr : Stop r) :
    gethex (g ++ (w ++ r)) = .error .bad := by
  unfold gethex
  rw [getword_text g w r hg h.1 hr]
  show (match fromhex w with
    | some x => Except.ok (x, r)
    | none => Except.error Fail.bad) = _
  rcases hf : fromhex w with _ | v
  · rfl
  · exact absurd ((C06_fromhex_iff w v).1 hf) (h.2 v)

theorem badNet_word {L : Libc} {w : Bytes} (h : BadNet L w) : Word w := by
  cases h <;> first | assumption | exact (‹BadAddr L _›).1

theorem parseNet_bad {L : Libc} (hL : LibcOk L) {w : Bytes} (h : BadNet L w) : parseNet L w = none := by
  unfold parseNet
  cases h with
  | host h1 h2 h =>
    rw [if_neg h1, if_pos (by simpa using h2)]
    unfold parseAddress
    rw [h.2.1, h.2.2]
  | @long b t hw hb hl =>
    obtain ⟨e1, e2, e3, e4⟩ := slash_split (t := t) hb
    rw [if_neg e4, if_neg (by simp [e3])]
    simp only [e1, e2]
    rw [if_pos (by omega)]
  | @addr b t hw hb h =>
    obtain ⟨e1, e2, e3, e4⟩ := slash_split (t := t) hb
    rw [if_neg e4, if_neg (by simp [e3])]
    simp only [e1, e2]
    split
    · rfl
    · rw [h.2.1, h.2.2]
  | @plen4 b a t hw hb h hn =>
    obtain ⟨e1, e2, e3, e4⟩ := slash_split (t := t) hb
    rw [if_neg e4, if_neg (by simp [e3])]
    simp only [e1, e2]
    cases h with
    | v4 h =>
      split
      · rfl
      · rw [h]
        simp only
        rcases strtol_bad hn with e | ⟨v, e, -, -, hv⟩
        · rw [e]
        · rw [e]
          simp only
          rw [if_pos (by omega)]
  | @plen6 b a t hw hb h hn =>
    obtain ⟨e1, e2, e3, e4⟩ := slash_split (t := t) hb
    rw [if_neg e4, if_neg (by simp [e3])]
    simp only [e1, e2]
    cases h with
    | v6 h h' =>
      split
      · rfl
      · rw [h]
        simp only
        rw [h']
        simp only
        rcases strtol_bad hn with e | ⟨v, e, -, -, hv⟩
        · rw [e]
        · rw [e]
          simp only
          rw [if_pos (by omega)]

theorem getnet_bad {L : Libc} (hL : LibcOk L) {g w r : Bytes} (hg : ∀ c ∈ g, BlankC c) (h : BadNet L w) (hr : Stop r) :
    getnet L (g ++ (w ++ r)) = .error .bad := by
  unfold getnet
  rw [getword_text g w r hg (badNet_word h) hr]
  show (match parseNet L w with
    | some x => Except.ok (x, r)
    | none => Except.error Fail.bad) = _
  rw [parseNet_bad hL h]

end Babel
