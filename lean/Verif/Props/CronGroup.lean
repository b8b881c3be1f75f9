import Verif.Props.Cron

/-
C74: several cron expressions together.
-/

set_option autoImplicit false

namespace Ladder.Props

open Lwdtc Spec

/-- **C74** At least one of several expressions matches: reported iff this is so, for any number of expressions and never undefined. -/
theorem C74_some {cs : List CronExpr} {tm : Tm} (hne : cs ≠ []) (hs : ∀ c ∈ cs, Sized c) (ht : Calendar tm) :
    ∃ r, multiOr tm cs = .ok r ∧ (r = .ok ↔ ∃ c ∈ cs, Due c tm) ∧ (r = .err ↔ ∀ c ∈ cs, ¬ Due c tm) := by
  have key : ∀ cs : List CronExpr, (∀ c ∈ cs, Sized c) →
      multiOr.go tm cs = .ok (if ∃ c ∈ cs, Due c tm then .ok else .err) := by
    intro cs
    induction cs with
    | nil => intro _; simp [multiOr.go]
    | cons c cs ih =>
      intro h
      rw [multiOr.go, isValid_eq (h c (by simp)) ht]
      by_cases hd : Due c tm
      · simp [hd]
      · simp only [hd, decide_false]
        rw [ih fun c hc => h c (by simp [hc])]
        simp [hd]
  refine ⟨if ∃ c ∈ cs, Due c tm then .ok else .err, ?_, ?_, ?_⟩
  · unfold multiOr
    rw [if_neg (by simpa using hne)]
    exact key cs hs
  · split <;> simp_all
  · split <;> simp_all

/-- **C74** All of several expressions match: reported iff this is so, for any number of expressions and never undefined. -/
theorem C74_all {cs : List CronExpr} {tm : Tm} (hne : cs ≠ []) (hs : ∀ c ∈ cs, Sized c) (ht : Calendar tm) :
    ∃ r, multiAnd tm cs = .ok r ∧ (r = .ok ↔ ∀ c ∈ cs, Due c tm) ∧ (r = .err ↔ ∃ c ∈ cs, ¬ Due c tm) := by
  have key : ∀ cs : List CronExpr, (∀ c ∈ cs, Sized c) →
      multiAnd.go tm cs = .ok (if ∀ c ∈ cs, Due c tm then .ok else .err) := by
    intro cs
    induction cs with
    | nil => intro _; simp [multiAnd.go]
    | cons c cs ih =>
      intro h
      rw [multiAnd.go, isValid_eq (h c (by simp)) ht]
      by_cases hd : Due c tm
      · simp only [hd, decide_true]
        rw [ih fun c hc => h c (by simp [hc])]
        simp [hd]
      · simp [hd]
  refine ⟨if ∀ c ∈ cs, Due c tm then .ok else .err, ?_, ?_, ?_⟩
  · unfold multiAnd
    rw [if_neg (by simpa using hne)]
    exact key cs hs
  · split <;> simp_all
  · split <;> simp_all

theorem parseMulti_ok : ∀ (ss : List (List Char)) (i : Nat) (cs : List CronExpr), cs.length = ss.length →
    (∀ (k : Nat) s c, ss[k]? = some s → cs[k]? = some c → parse s = .ok c) → parseMulti.go i ss = .ok (.ok cs)
  | [], _, [], _, _ => rfl
  | [], _, _ :: _, h, _ => by simp at h
  | _ :: _, _, [], h, _ => by simp at h
  | s :: ss, i, c :: cs, hl, h => by
    rw [parseMulti.go, h 0 s c rfl rfl]
    simp only
    rw [parseMulti_ok ss (i + 1) cs (by simpa using hl) fun k s c h1 h2 => h (k + 1) s c (by simpa using h1) (by simpa using h2)]
    rfl

theorem parseMulti_fail : ∀ (ss : List (List Char)) (i k : Nat) (s : List Char) (r : Res), ss[k]? = some s → parse s = .fail r →
    (∀ (j : Nat) s, j < k → ss[j]? = some s → ∃ c, parse s = .ok c) → parseMulti.go i ss = .ok (.error (i + k, r))
  | [], _, _, _, _, h, _, _ => by simp at h
  | s' :: ss, i, 0, s, r, h, hf, _ => by
    simp only [List.getElem?_cons_zero, Option.some.injEq] at h
    subst h
    rw [parseMulti.go, hf]
    rfl
  | s' :: ss, i, k + 1, s, r, h, hf, hb => by
    obtain ⟨c, hc⟩ := hb 0 s' (by omega) rfl
    rw [parseMulti.go, hc]
    simp only
    rw [parseMulti_fail ss (i + 1) k s r (by simpa using h) hf fun j s hj hs => hb (j + 1) s (by omega) (by simpa using hs)]
    rw [show i + 1 + k = i + (k + 1) by omega]
    rfl

/-- **C74** Several strings that all can be parsed give the parsed expressions in order. -/
theorem C74_parsed {ss : List (List Char)} {cs : List CronExpr} (hne : ss ≠ []) (hl : cs.length = ss.length)
    (h : ∀ (k : Nat) s c, ss[k]? = some s → cs[k]? = some c → parse s = .ok c) : parseMulti ss = .ok (.ok cs) := by
  unfold parseMulti
  rw [if_neg (by simpa using hne)]
  exact parseMulti_ok ss 0 cs hl h

/-- **C74** Otherwise the position of the first one that cannot be parsed is reported, with its error code. -/
theorem C74_first_failure {ss : List (List Char)} {k : Nat} {s : List Char} {r : Res} (hk : ss[k]? = some s) (hf : parse s = .fail r)
    (hb : ∀ (j : Nat) s, j < k → ss[j]? = some s → ∃ c, parse s = .ok c) : parseMulti ss = .ok (.error (k, r)) := by
  unfold parseMulti
  rw [if_neg (by intro h; rw [List.isEmpty_iff.1 h] at hk; simp at hk)]
  have := parseMulti_fail ss 0 k s r hk hf hb
  rwa [Nat.zero_add] at this

/-- **C74** From text to match: documented expressions, written with any spacing, are accepted, and at a calendar time the group matches
"some" (or "all") iff one (or each) of the expressions as documented fires. -/
theorem C74_group {xs : List (Expression × (Nat → Nat))} (hne : xs ≠ []) (hx : ∀ x ∈ xs, x.1.Documented) {tm : Tm} (ht : Calendar tm) :
    ∃ cs r r', parseMulti (xs.map fun x => x.1.text x.2) = .ok (.ok cs) ∧ multiOr tm cs = .ok r ∧ multiAnd tm cs = .ok r' ∧
      (r = .ok ↔ ∃ x ∈ xs, x.1.Fires tm) ∧ (r' = .ok ↔ ∀ x ∈ xs, x.1.Fires tm) := by
  have key : ∀ xs : List (Expression × (Nat → Nat)), (∀ x ∈ xs, x.1.Documented) → ∃ cs : List CronExpr, cs.length = xs.length ∧
      (∀ (k : Nat) s c, (xs.map fun x => x.1.text x.2)[k]? = some s → cs[k]? = some c → parse s = .ok c) ∧ (∀ c ∈ cs, Sized c) ∧
      ((∃ c ∈ cs, Due c tm) ↔ ∃ x ∈ xs, x.1.Fires tm) ∧ ((∀ c ∈ cs, Due c tm) ↔ ∀ x ∈ xs, x.1.Fires tm) := by
    intro xs
    induction xs with
    | nil => intro _; exact ⟨[], rfl, by simp, by simp, by simp, by simp⟩
    | cons x xs ih =>
      intro h
      obtain ⟨cs, h1, h2, h3, h4, h5⟩ := ih fun y hy => h y (by simp [hy])
      obtain ⟨c, hp, hs, k1, k2, k3, k4, k5, k6, k7⟩ := C53_expression_partial (h x (by simp)) x.2
      have hd : Due c tm ↔ x.1.Fires tm := by
        unfold Due Expression.Fires
        rw [k1, k2, k3, k4, k5, k6, k7]
      refine ⟨c :: cs, by simp [h1], fun k s c' hs' hc' => ?_, fun c' hc' => ?_, ?_, ?_⟩
      · cases k with
        | zero =>
          simp only [List.map_cons, List.getElem?_cons_zero, Option.some.injEq] at hs' hc'
          rw [← hs', ← hc']
          exact hp
        | succ k => exact h2 k s c' (by simpa using hs') (by simpa using hc')
      · rcases List.mem_cons.1 hc' with rfl | hc'
        · exact hs
        · exact h3 c' hc'
      · simp [hd, h4]
      · simp [hd, h5]
  obtain ⟨cs, h1, h2, h3, h4, h5⟩ := key xs hx
  have hne' : cs ≠ [] := by intro h; rw [h] at h1; cases xs <;> simp at h1 hne
  obtain ⟨r, e1, h6, -⟩ := C74_some hne' h3 ht
  obtain ⟨r', e2, h7, -⟩ := C74_all hne' h3 ht
  exact ⟨cs, r, r', C74_parsed (by simpa using hne) (by simpa using h1) h2, e1, e2, h6.trans h4, h7.trans h5⟩

/-- The hypotheses can be met: every five minutes on week days, with two different spacings, on a Wednesday. -/
example : ∃ cs r r', parseMulti [demoExpr.text fun _ => 0, demoExpr.text fun k => k] = .ok (.ok cs) ∧ multiOr demoTm cs = .ok r ∧
    multiAnd demoTm cs = .ok r' ∧ (r = .ok ↔ demoExpr.Fires demoTm) ∧ (r' = .ok ↔ demoExpr.Fires demoTm) := by
  obtain ⟨cs, r, r', h1, h2, h3, h4, h5⟩ := C74_group (xs := [(demoExpr, fun _ => 0), (demoExpr, fun k => k)]) (by simp)
    (by intro x hx; simp at hx; rcases hx with rfl | rfl <;> exact demoExpr_documented) (tm := demoTm)
    ⟨by decide, by decide, by decide, by decide, by decide, by decide, by decide⟩
  exact ⟨cs, r, r', h1, h2, h3, by simpa using h4, by simpa using h5⟩

/-- A failure in second position. -/
example : (match parseMulti ["* * * * * * *".toList, "* * *".toList, "x".toList] with | .ok (.error (1, _)) => true | _ => false) = true := by
  decide +kernel

end Ladder.Props
