import Verif.Spec.Main
import Verif.Lemmas.Range
import Verif.Lemmas.Reject
/-
The command line.
-/
set_option linter.unusedSimpArgs false
set_option linter.unusedVariables false
namespace Babel
open Spec

/-! ### getopt -/

theorem takesArg_flag (c : UInt8) : takesArg c = some false ↔ letter c ∈ flags := by
  have : ∀ n : Fin 256, takesArg (UInt8.ofNat n.val) = some false ↔ letter (UInt8.ofNat n.val) ∈ flags := by decide +kernel
  have h := this ⟨c.toNat, c.toNat_lt⟩
  simpa using h

theorem takesArg_arg (c : UInt8) : takesArg c = some true ↔ letter c ∈ withArg := by
  have : ∀ n : Fin 256, takesArg (UInt8.ofNat n.val) = some true ↔ letter (UInt8.ofNat n.val) ∈ withArg := by decide +kernel
  have h := this ⟨c.toNat, c.toNat_lt⟩
  simpa using h

/-- The token of an option. -/
def tokOf (o : UInt8 × Bytes) : OptTok := .opt o.1 o.2

theorem takesArg_dash : takesArg 45 = none := by decide +kernel

theorem lexArgs_dashes (rest : List Bytes) : lexArgs none ([45, 45] :: rest) = ([], rest) := by
  conv => lhs; unfold lexArgs
  rw [if_pos rfl]

theorem lexArgs_word {c : UInt8} {cs : Bytes} (h : ¬ (c = 45 ∧ cs = [])) (rest : List Bytes) : lexArgs none ((45 :: c :: cs) :: rest) =
    ((lexWord (c :: cs)).1 ++ (lexArgs (lexWord (c :: cs)).2 rest).1, (lexArgs (lexWord (c :: cs)).2 rest).2) := by
  conv => lhs; unfold lexArgs
  rw [if_neg (by intro e; injection e with _ e; injection e with e1 e2; exact h ⟨e1, e2⟩)]
  rfl

theorem lexArgs_operand {w : Bytes} (h : w.head? ≠ some 45 ∨ w = [45]) (rest : List Bytes) : lexArgs none (w :: rest) = ((lexArgs none rest).1, w :: (lexArgs none rest).2) := by
  conv => lhs; unfold lexArgs
  rw [if_neg (by rintro rfl; rcases h with h | h; exact h rfl; cases h)]
  split
  · rcases h with h | h
    · exact absurd rfl h
    · cases h
  · rfl

theorem lexArgs_wait (c : UInt8) (a : Bytes) (rest : List Bytes) : lexArgs (some c) (a :: rest) = (.opt c a :: (lexArgs none rest).1, (lexArgs none rest).2) := by
  conv => lhs; unfold lexArgs

theorem lexWord_cons (c : UInt8) (cs : Bytes) : lexWord (c :: cs) = (match takesArg c with
    | none => ([.bad], none)
    | some false => (.opt c [] :: (lexWord cs).1, (lexWord cs).2)
    | some true => if cs.isEmpty then ([], some c) else ([.opt c cs], none)) := by
  conv => lhs; unfold lexWord
  rfl

theorem flag_not_dash {c : UInt8} (h : letter c ∈ flags) : c ≠ 45 := by
  rintro rfl
  have := (takesArg_flag 45).2 h
  rw [takesArg_dash] at this
  cases this

theorem arg_not_dash {c : UInt8} (h : letter c ∈ withArg) : c ≠ 45 := by
  rintro rfl
  have := (takesArg_arg 45).2 h
  rw [takesArg_dash] at this
  cases this

theorem lex_of_line {args : List Bytes} {opts : List (UInt8 × Bytes)} {ops : List Bytes} (h : CommandLine args opts ops) :
    lexArgs none args = (opts.map tokOf, ops) := by
  induction h with
  | done => rfl
  | dashes => exact lexArgs_dashes _
  | operand hw _ ih => rw [lexArgs_operand hw, ih]
  | flag hc _ ih =>
    rw [lexArgs_word (fun e => flag_not_dash hc e.1), lexWord_cons, (takesArg_flag _).2 hc]
    show (_ :: (lexArgs none _).1, (lexArgs none _).2) = _
    rw [ih]; rfl
  | @joined c d cs args opts ops hc hd _ ih =>
    rw [lexArgs_word (fun e => flag_not_dash hc e.1), lexWord_cons, (takesArg_flag _).2 hc]
    rw [lexArgs_word (fun e => hd e.1)] at ih
    simp only [List.cons_append]
    injection ih with i1 i2
    rw [i1, i2]; rfl
  | separate hc _ ih =>
    rw [lexArgs_word (fun e => arg_not_dash hc e.1), lexWord_cons, (takesArg_arg _).2 hc]
    simp only [List.isEmpty_nil, if_true, List.nil_append]
    rw [lexArgs_wait, ih]; rfl
  | @attached c a args opts ops hc ha _ ih =>
    rw [lexArgs_word (fun e => arg_not_dash hc e.1), lexWord_cons, (takesArg_arg _).2 hc]
    have : a.isEmpty = false := by cases a with | nil => exact absurd rfl ha | cons => rfl
    simp only [this, Bool.false_eq_true, if_false]
    rw [ih]; rfl

theorem bad_not_tok {l : List OptTok} {opts : List (UInt8 × Bytes)} (h : .bad :: l = opts.map tokOf) : False := by
  cases opts with
  | nil => cases h
  | cons o r => simp only [List.map_cons, tokOf] at h; injection h with h _; cases h

theorem opt_tok {c : UInt8} {a : Bytes} {l : List OptTok} {opts : List (UInt8 × Bytes)} (h : .opt c a :: l = opts.map tokOf) :
    ∃ r, opts = (c, a) :: r ∧ l = r.map tokOf := by
  cases opts with
  | nil => cases h
  | cons o r =>
    simp only [List.map_cons, tokOf] at h
    injection h with h1 h2
    injection h1 with h3 h4
    exact ⟨r, by rw [h3, h4], h2⟩

theorem line_of_word {args : List Bytes} (ih : ∀ opts ops, lexArgs none args = (opts.map tokOf, ops) → CommandLine args opts ops)
    (ihw : ∀ c, letter c ∈ withArg → ∀ opts ops, lexArgs (some c) args = (opts.map tokOf, ops) → CommandLine ([45, c] :: args) opts ops) :
    ∀ (cs : Bytes) (c : UInt8), c ≠ 45 → ∀ opts ops, ((lexWord (c :: cs)).1 ++ (lexArgs (lexWord (c :: cs)).2 args).1, (lexArgs (lexWord (c :: cs)).2 args).2) = (opts.map tokOf, ops) →
    CommandLine ((45 :: c :: cs) :: args) opts ops := by
  intro cs
  induction cs with
  | nil =>
    intro c hc opts ops h
    rw [lexWord_cons] at h
    cases ht : takesArg c with
    | none =>
      rw [ht] at h
      simp only [List.cons_append, List.nil_append] at h
      injection h with h _
      exact (bad_not_tok h).elim
    | some b =>
      rw [ht] at h
      cases b with
      | false =>
        simp only [lexWord, List.cons_append, List.nil_append] at h
        injection h with h1 h2
        obtain ⟨r, rfl, h3⟩ := opt_tok h1
        exact .flag ((takesArg_flag c).1 ht) (ih r ops (by rw [← h3, ← h2]))
      | true =>
        simp only [List.isEmpty_nil, if_true, List.nil_append] at h
        exact ihw c ((takesArg_arg c).1 ht) opts ops h
  | cons d cs ihc =>
    intro c hc opts ops h
    rw [lexWord_cons] at h
    cases ht : takesArg c with
    | none =>
      rw [ht] at h
      simp only [List.cons_append, List.nil_append] at h
      injection h with h _
      exact (bad_not_tok h).elim
    | some b =>
      rw [ht] at h
      cases b with
      | false =>
        simp only [List.cons_append] at h
        injection h with h1 h2
        obtain ⟨r, rfl, h3⟩ := opt_tok h1
        by_cases hd : d = 45
        · subst hd
          rw [lexWord_cons, takesArg_dash] at h3
          exact (bad_not_tok h3).elim
        · exact .joined ((takesArg_flag c).1 ht) hd (ihc d hd r ops (by rw [← h3, ← h2]))
      | true =>
        simp only [List.isEmpty_cons, Bool.false_eq_true, if_false, List.cons_append, List.nil_append] at h
        injection h with h1 h2
        obtain ⟨r, rfl, h3⟩ := opt_tok h1
        exact .attached ((takesArg_arg c).1 ht) (by simp) (ih r ops (by rw [← h3, ← h2]))

theorem line_of_lex : ∀ (args : List Bytes), (∀ opts ops, lexArgs none args = (opts.map tokOf, ops) → CommandLine args opts ops) ∧
    (∀ c, letter c ∈ withArg → ∀ opts ops, lexArgs (some c) args = (opts.map tokOf, ops) → CommandLine ([45, c] :: args) opts ops) := by
  intro args
  induction args with
  | nil =>
    constructor
    · intro opts ops h
      simp only [lexArgs] at h
      injection h with h1 h2
      have : opts = [] := by simpa using h1.symm
      subst this h2
      exact .done
    · intro c hc opts ops h
      simp only [lexArgs] at h
      injection h with h1 h2
      exact (bad_not_tok h1).elim
  | cons w args ih =>
    constructor
    · intro opts ops h
      by_cases hd : w = [45, 45]
      · subst hd
        rw [lexArgs_dashes] at h
        injection h with h1 h2
        have : opts = [] := by simpa using h1.symm
        subst this h2
        exact .dashes
      by_cases ho : w.head? ≠ some 45 ∨ w = [45]
      · rw [lexArgs_operand ho] at h
        injection h with h1 h2
        subst h2
        exact .operand ho (ih.1 opts _ (by rw [← h1]))
      obtain ⟨h1, h2⟩ := not_or.1 ho
      rcases w with _ | ⟨a, _ | ⟨c, cs⟩⟩
      · simp at h1
      · simp at h1; subst h1; exact absurd rfl h2
      · simp at h1
        subst h1
        rw [lexArgs_word (fun e => hd (by rw [e.1, e.2]))] at h
        by_cases hc : c = 45
        · subst hc
          rw [lexWord_cons, takesArg_dash] at h
          simp only [List.cons_append, List.nil_append] at h
          injection h with h _
          exact (bad_not_tok h).elim
        · exact line_of_word ih.1 ih.2 cs c hc opts ops h
    · intro c hc opts ops h
      rw [lexArgs_wait] at h
      injection h with h1 h2
      obtain ⟨r, rfl, h3⟩ := opt_tok h1
      exact .separate hc (ih.1 r ops (by rw [← h3, ← h2]))

theorem lex_iff (args : List Bytes) (opts : List (UInt8 × Bytes)) (ops : List Bytes) : lexArgs none args = (opts.map tokOf, ops) ↔ CommandLine args opts ops :=
  ⟨(line_of_lex args).1 opts ops, lex_of_line⟩

/-- If there is a bad option the tokens have one. -/
theorem toks_or_bad : ∀ l : List OptTok, (∃ opts : List (UInt8 × Bytes), l = opts.map tokOf) ∨ .bad ∈ l
  | [] => .inl ⟨[], rfl⟩
  | .bad :: l => .inr (List.mem_cons_self ..)
  | .opt c a :: l => by
    rcases toks_or_bad l with ⟨o, rfl⟩ | h
    · exact .inl ⟨(c, a) :: o, rfl⟩
    · exact .inr (List.mem_cons_of_mem _ h)

/-! ### Options -/

theorem argsOf_snoc (opts : List (UInt8 × Bytes)) (c : UInt8) (a : Bytes) (ch : Char) :
    argsOf (opts ++ [(c, a)]) ch = if letter c = ch then argsOf opts ch ++ [a] else argsOf opts ch := by
  unfold argsOf
  rw [List.filter_append, List.map_append]
  by_cases h : letter c = ch
  · rw [if_pos h, List.filter_cons_of_pos (by simpa using h)]; rfl
  · rw [if_neg h, List.filter_cons_of_neg (by simpa using h)]; simp

theorem lastArg_snoc (opts : List (UInt8 × Bytes)) (c : UInt8) (a : Bytes) (ch : Char) :
    lastArg (opts ++ [(c, a)]) ch = if letter c = ch then some a else lastArg opts ch := by
  unfold lastArg
  rw [argsOf_snoc]
  split
  · rw [List.getLast?_append]; rfl
  · rfl

theorem has_snoc (opts : List (UInt8 × Bytes)) (c : UInt8) (a : Bytes) (ch : Char) :
    has (opts ++ [(c, a)]) ch = if letter c = ch then true else has opts ch := by
  unfold has
  rw [List.any_append]
  by_cases h : letter c = ch
  · simp [h]
  · simp [h]

theorem server_snoc (opts : List (UInt8 × Bytes)) (c : UInt8) (a : Bytes) :
    server (opts ++ [(c, a)]) = if letter c = 'g' ∨ letter c = 'G' then some (letter c == 'G', a) else server opts := by
  unfold server
  rw [List.filter_append]
  by_cases h : letter c = 'g' ∨ letter c = 'G'
  · rw [if_pos h, List.filter_cons_of_pos (by simpa using h), List.getLast?_append]; rfl
  · rw [if_neg h, List.filter_cons_of_neg (by simpa using h)]; simp

theorem num_snoc (opts : List (UInt8 × Bytes)) (c : UInt8) (a : Bytes) (ch : Char) (d : Int) :
    num (opts ++ [(c, a)]) ch d = if letter c = ch then parseNat a else num opts ch d := by
  unfold num
  rw [lastArg_snoc]
  split <;> rfl

theorem natIn_ok {lo hi : Int} {a : Bytes} {α : Type} {f : Int → α} {x : α} : (natIn lo hi a).map f = .ok x ↔ InRangeNat lo hi a ∧ x = f (parseNat a) := by
  unfold natIn InRangeNat
  simp only
  split
  · next h => exact ⟨nofun, fun e => absurd e.1 (by omega)⟩
  · next h => exact ⟨fun e => ⟨by omega, by cases e; rfl⟩, fun e => by rw [e.2]; rfl⟩

theorem hello_ok {a : Bytes} {α : Type} {f : Int → α} {x : α} :
    (hellotime a).map f = .ok x ↔ (0 < parseThousands a ∧ parseThousands a ≤ 655350) ∧ x = f (parseThousands a) := by
  unfold hellotime
  simp only
  split
  · next h => exact ⟨nofun, fun e => absurd e.1 (by omega)⟩
  · next h => exact ⟨fun e => ⟨by omega, by cases e; rfl⟩, fun e => by rw [e.2]; rfl⟩

theorem ok_iff {α ε : Type} {a b : α} : (Except.ok a : Except ε α) = .ok b ↔ b = a := ⟨fun h => by cases h; rfl, fun h => by rw [h]⟩

theorem apply_ok {L : Libc} {opts : List (UInt8 × Bytes)} {c : UInt8} {a : Bytes} {m : Cmd} (hC : letter c ≠ 'C') :
    applyOpt L (meaning L opts) c a = .ok m ↔ GoodOpt L c a ∧ (letter c = 'T' → (argsOf opts 'T').length < 10) ∧ m = meaning L (opts ++ [(c, a)]) := by
  unfold applyOpt GoodOpt
  simp only [meaning, argsOf_snoc, lastArg_snoc, has_snoc, server_snoc, num_snoc]
  unfold letter at *
  generalize Char.ofNat c.toNat = ch at *
  split
  case h_1 =>
    cases hp : parseAddress L a with
    | none => exact ⟨nofun, fun e => by obtain ⟨⟨x, f, e1, _⟩, _⟩ := e; cases e1⟩
    | some r =>
      obtain ⟨x, f⟩ := r
      simp only
      split
      · next h => exact ok_iff.trans ⟨fun e => ⟨⟨x, f, rfl, h⟩, nofun, e.trans (by simp [Cmd.opts, hp])⟩, fun e => e.2.2.trans (by simp [Cmd.opts, hp])⟩
      · next h => exact ⟨nofun, fun e => by obtain ⟨⟨x, f, e1, e2⟩, _⟩ := e; cases e1; exact absurd e2 h⟩
  case h_11 =>
    by_cases h : a.head? = some 47
    · rw [if_pos h, ok_iff]
      exact ⟨fun e => ⟨.inl h, nofun, e.trans (by simp [Cmd.opts, h])⟩, fun e => e.2.2.trans (by simp [Cmd.opts, h])⟩
    · rw [if_neg h, natIn_ok]
      exact ⟨fun e => ⟨.inr e.1, nofun, e.2.trans (by simp [Cmd.opts, h])⟩, fun e => ⟨e.1.resolve_left h, e.2.2.trans (by simp [Cmd.opts, h])⟩⟩
  case h_12 =>
    by_cases h : a.head? = some 47
    · rw [if_pos h, ok_iff]
      exact ⟨fun e => ⟨.inl h, nofun, e.trans (by simp [Cmd.opts, h])⟩, fun e => e.2.2.trans (by simp [Cmd.opts, h])⟩
    · rw [if_neg h, natIn_ok]
      exact ⟨fun e => ⟨.inr e.1, nofun, e.2.trans (by simp [Cmd.opts, h])⟩, fun e => ⟨e.1.resolve_left h, e.2.2.trans (by simp [Cmd.opts, h])⟩⟩
  case h_17 =>
    simp only [List.length_map]
    by_cases h : (argsOf opts 'T').length > 9
    · rw [if_pos h]
      exact ⟨nofun, fun e => absurd (e.2.1 trivial) (by omega)⟩
    · rw [if_neg h, natIn_ok]
      exact ⟨fun e => ⟨e.1, fun _ => by omega, e.2.trans (by simp [Cmd.opts])⟩, fun e => ⟨e.1, e.2.2.trans (by simp [Cmd.opts])⟩⟩
  case h_19 => exact absurd rfl hC
  all_goals first
    | (rw [natIn_ok]; simp [Cmd.opts]; done)
    | (rw [hello_ok]; simp [Cmd.opts]; done)
    | (rw [ok_iff]; simp [Cmd.opts, flags, withArg]; done)
    | skip
  case h_23 => exact ⟨nofun, fun e => e.1.elim⟩
  case h_24 =>
    refine ⟨nofun, fun e => ?_⟩
    exfalso
    have e := e.1
    split at e <;> first
      | (next h => exact h rfl)
      | exact e
      | (simp_all [flags, withArg]; done)

theorem runOpts_append (L : Libc) : ∀ (xs ys : List OptTok) (m : Cmd), runOpts L m (xs ++ ys) = (runOpts L m xs).bind fun m => runOpts L m ys
  | [], ys, m => rfl
  | .bad :: xs, ys, m => rfl
  | .opt c a :: xs, ys, m => by
    show (applyOpt L m c a).bind _ = ((applyOpt L m c a).bind _).bind _
    cases h : applyOpt L m c a with
    | error e => rfl
    | ok m1 => exact runOpts_append L xs ys m1

theorem exceptBind_ok {ε α β : Type} {x : Except ε α} {f : α → Except ε β} {b : β} : x.bind f = .ok b ↔ ∃ a, x = .ok a ∧ f a = .ok b := by
  cases x with
  | error e => exact ⟨nofun, fun ⟨a, h, _⟩ => by cases h⟩
  | ok a => exact ⟨fun h => ⟨a, rfl, h⟩, fun ⟨a', h, h2⟩ => by cases h; exact h2⟩

theorem argsOf_le (opts : List (UInt8 × Bytes)) (o : UInt8 × Bytes) (ch : Char) : (argsOf opts ch).length ≤ (argsOf (opts ++ [o]) ch).length := by
  obtain ⟨c, a⟩ := o
  rw [argsOf_snoc]
  split
  · simp
  · exact Nat.le_refl _

theorem run_iff (L : Libc) : ∀ (n : Nat) (opts : List (UInt8 × Bytes)), opts.length = n → (∀ o ∈ opts, letter o.1 ≠ 'C') → ∀ m : Cmd,
    runOpts L {} (opts.map tokOf) = .ok m ↔ (∀ o ∈ opts, GoodOpt L o.1 o.2) ∧ (argsOf opts 'T').length ≤ 10 ∧ m = meaning L opts
  | 0, opts, hn, hC, m => by
    have : opts = [] := List.eq_nil_of_length_eq_zero hn
    subst this
    have e0 : runOpts L {} (List.map tokOf []) = .ok (meaning L []) := rfl
    rw [e0, ok_iff]
    constructor
    · intro e
      exact ⟨fun o ho => (by cases ho), by decide, e⟩
    · intro e
      exact e.2.2
  | n + 1, opts, hn, hC, m => by
    have hne : opts ≠ [] := by rintro rfl; cases hn
    obtain ⟨xs, o, rfl⟩ : ∃ xs o, opts = xs ++ [o] := ⟨opts.dropLast, opts.getLast hne, (List.dropLast_concat_getLast hne).symm⟩
    obtain ⟨c, a⟩ := o
    have ih := run_iff L n xs (by simpa using hn) (fun o ho => hC o (List.mem_append_left _ ho))
    have hc : letter c ≠ 'C' := hC (c, a) (List.mem_append_right _ (List.mem_cons_self ..))
    rw [List.map_append, runOpts_append, exceptBind_ok]
    have one : ∀ m1, runOpts L m1 (List.map tokOf [(c, a)]) = applyOpt L m1 c a := by
      intro m1
      show (applyOpt L m1 c a).bind _ = _
      cases applyOpt L m1 c a <;> rfl
    simp only [one]
    constructor
    · rintro ⟨m1, h1, h2⟩
      obtain ⟨g1, g2, rfl⟩ := (ih m1).1 h1
      obtain ⟨g3, g4, g5⟩ := (apply_ok hc).1 h2
      refine ⟨fun o ho => ?_, ?_, g5⟩
      · rcases List.mem_append.1 ho with ho | ho
        · exact g1 o ho
        · rw [List.mem_singleton.1 ho]; exact g3
      · rw [argsOf_snoc]
        split
        · next h => have := g4 h; simp; omega
        · exact g2
    · rintro ⟨h1, h2, h3⟩
      refine ⟨meaning L xs, (ih _).2 ⟨fun o ho => h1 o (List.mem_append_left _ ho), Nat.le_trans (argsOf_le ..) h2, rfl⟩, (apply_ok hc).2 ⟨h1 _ (List.mem_append_right _ (List.mem_cons_self ..)), fun h => ?_, h3⟩⟩
      rw [argsOf_snoc, if_pos h] at h2
      simp at h2
      omega

theorem run_bad (L : Libc) (l : List OptTok) (m' : Cmd) (h : OptTok.bad ∈ l) : ∀ m : Cmd, runOpts L m l ≠ .ok m' := by
  induction l with
  | nil => cases h
  | cons t l ih =>
    intro m e
    cases t with
    | bad =>
      rw [runOpts.eq_2] at e
      cases e
    | opt c a =>
      rw [runOpts.eq_3] at e
      obtain ⟨m1, _, h2⟩ := exceptBind_ok.1 e
      rcases List.mem_cons.1 h with h | h
      · cases h
      · exact ih h m1 h2

end Babel
