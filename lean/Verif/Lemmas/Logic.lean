import Verif.Spec.Logic
import Verif.Props.ScanSafe

/-
Execution of one logical instruction as a change of the image and of the power states.
-/

set_option autoImplicit false

namespace Ladder

open Spec Op Logic

/-- Everything in a context that is not a location, nor the error report, nor the executing network. -/
def core (c : Ctx) : Ctx := { shell c with last := {}, exec := none }

theorem core_upd (c : Ctx) (ℓ : Loc) (x : Nat) : core (upd c ℓ x) = core c := by unfold core; rw [shell_upd]

theorem Spec.Logic.Told.le {env : Env} {lo hi : Nat} {us : List Reading} (h : Told env lo hi us) : lo ≤ hi := by
  induction h with
  | done h => exact h
  | more h1 h2 h3 _ ih => omega

theorem Spec.Logic.Told.mono {env : Env} {lo hi hi' : Nat} {us : List Reading} (h : Told env lo hi us) (hh : hi ≤ hi') : Told env lo hi' us := by
  induction h with
  | done h => exact .done (by omega)
  | more h1 h2 h3 _ ih => exact .more h1 h2 h3 (ih hh)

theorem Spec.Logic.Told.append {env : Env} {lo mid hi : Nat} {us vs : List Reading} (h : Told env lo mid us) (h' : Told env mid hi vs) :
    Told env lo hi (us ++ vs) := by
  induction h with
  | done h =>
    cases h' with
    | done h' => exact .done (by omega)
    | more h1 h2 h3 h4 => exact .more (by omega) h2 h3 h4
  | more h1 h2 h3 _ ih => exact .more h1 h2 h3 (ih h')

theorem prior_append : ∀ (us vs : List Reading) (rest : Nat → Reading), prior (us ++ vs) rest = prior us (prior vs rest)
  | [], _, _ => rfl
  | q :: us, vs, rest => by
    funext k
    cases k with
    | zero => rfl
    | succ k => exact congrFun (prior_append us vs rest) k

/-- A computation that, with readings `vs` of the clock, leads from image `m` to image `m'` and yields `a`. -/
def Runs {α : Type} (g : State → State × α) (m : Image) (vs : List Reading) (m' : Image) (a : α) : Prop :=
  ∀ rest, g ⟨m, prior vs rest, true⟩ = (⟨m', rest, true⟩, a)

/-- With the readings `us` of the clock before, and some more, arithmetic in `g` has no result. -/
def Bad (env : Env) (T : Nat) (us : List Reading) (g : State → State) (m : Image) : Prop :=
  ∃ vs hi, Told env T hi (us ++ vs) ∧ ∀ rest, (g ⟨m, prior vs rest, true⟩).sure = false

/-- The undefined behaviour of arithmetic. -/
def arithmetic : UB → Bool
  | .signedOverflow | .divZero | .shiftRange => true
  | _ => false

/-- The outcome is normal and has the property `good`, or it is undefined arithmetic and `bad` holds. -/
def Yields {α : Type} (r : Except UB (α × World)) (bad : Prop) (good : α → World → Prop) : Prop :=
  match r with
  | .ok (a, w) => good a w
  | .error e => arithmetic e = true ∧ bad

theorem Yields.of_ok {α : Type} {r : Except UB (α × World)} {bad : Prop} {good : α → World → Prop} {a : α} {w : World} (h : r = .ok (a, w))
    (hg : good a w) : Yields r bad good := by rw [h]; exact hg

theorem Yields.of_error {α : Type} {r : Except UB (α × World)} {bad : Prop} {good : α → World → Prop} {e : UB} (h : r = .error e)
    (ha : arithmetic e = true) (hg : bad) : Yields r bad good := by rw [h]; exact ⟨ha, hg⟩

theorem Yields.bind {α β : Type} {x : Op α} {k : α → Op β} {w : World} {bad bad' : Prop} {good : α → World → Prop} {good' : β → World → Prop}
    (h : Yields (x w) bad good) (hb : bad → bad') (hg : ∀ a w', good a w' → Yields (k a w') bad' good') : Yields ((x >>= k) w) bad' good' := by
  rw [bind_apply]
  cases hx : x w with
  | error e => rw [hx] at h; exact ⟨h.1, hb h.2⟩
  | ok r => obtain ⟨a, w'⟩ := r; rw [hx] at h; exact hg a w' h

theorem Yields.mono {α : Type} {r : Except UB (α × World)} {bad bad' : Prop} {good good' : α → World → Prop} (h : Yields r bad good)
    (hb : bad → bad') (hg : ∀ a w, good a w → good' a w) : Yields r bad' good' := by
  cases r with
  | error e => exact ⟨h.1, hb h.2⟩
  | ok r => exact hg _ _ h

/-- During the execution of network `n`: register contents, power states, the work limit, and the readings of the clock since external
call number `T`. -/
structure Lit (env : Env) (T : Nat) (us : List Reading) (B : Ctx) (n rows cols L : Nat) (z : Ctx) (m : Image) (f : Nat → Nat → Bool) (w : World) : Prop where
  sound : Sound false B n w
  limit : Room env z.scan.maxScanCycles L ∧ core w.ctx = z
  told : Told env T w.tick us
  image : ∀ ℓ, register ℓ = true → load w.ctx ℓ = m ℓ
  grid : ∀ r c, r < rows → c < cols → load w.ctx (.cell n r c) = some (f r c).toNat

/-- Power states with one changed. -/
def light (f : Nat → Nat → Bool) (r c : Nat) (b : Bool) : Nat → Nat → Bool := fun r' c' => if r' = r ∧ c' = c then b else f r' c'

theorem register_place {v : Value} {ℓ : Loc} (h : place v = some ℓ) : register ℓ = true := by
  cases ℓ <;> first | rfl | exact absurd h place_ne_cell

theorem register_prevPlace {v : Value} {ℓ : Loc} (h : prevPlace v = some ℓ) : register ℓ = true := by
  cases ℓ <;> first | rfl | exact absurd h prevPlace_ne_cell

theorem bit_le (b : Bool) : (bit b).toNat ≤ 1 := by cases b <;> decide

theorem arg_of {B : Ctx} {n r c i : Nat} {x : Cell} {v : Value} (hx : cell? B n r c = some x) (ho : operand? B n r c i = some v) :
    arg x i = v := by
  unfold operand? at ho
  rw [hx] at ho
  simp only [Option.bind_some] at ho
  split at ho
  · simp [arg, ho]
  · cases ho

namespace Lit

variable {env : Env} {T : Nat} {us : List Reading} {B : Ctx} {n rows cols L : Nat} {z : Ctx} {m : Image} {f : Nat → Nat → Bool} {w : World}

/-- A step that leaves locations and limit alone. -/
theorem same (h : Lit env T us B n rows cols L z m f w) {w' : World} (hs : Sound false B n w') (hl : w'.ctx.scan = w.ctx.scan ∧ core w'.ctx = core w.ctx)
    (hc : ∀ ℓ, load w'.ctx ℓ = load w.ctx ℓ) (ht : w.tick ≤ w'.tick) : Lit env T us B n rows cols L z m f w' :=
  ⟨hs, ⟨h.limit.1, hl.2.trans h.limit.2⟩, h.told.mono ht, fun ℓ hr => by rw [hc]; exact h.image ℓ hr, fun r c hr hcc => by rw [hc]; exact h.grid r c hr hcc⟩

theorem ctx (h : Lit env T us B n rows cols L z m f w) (l : Last) :
    Lit env T us B n rows cols L z m f { w with ctx := { w.ctx with last := l } } :=
  h.same (h.sound.ctx w.ctx.state l (by simp)) ⟨rfl, rfl⟩ (fun ℓ => by cases ℓ <;> rfl) (Nat.le_refl _)

theorem emit (h : Lit env T us B n rows cols L z m f w) {e : Event} (he : ∀ a b c r, e = .ret a b c r → r = .ok) :
    Lit env T us B n rows cols L z m f { w with trace := w.trace ++ [e] } := h.same (h.sound.append he (by simp)) ⟨rfl, rfl⟩ (fun _ => rfl) (Nat.le_refl _)

theorem upd_cell (h : Lit env T us B n rows cols L z m f w) {r c : Nat} (hr : r < rows) (hc : c < cols) (b : Bool) :
    Lit env T us B n rows cols L z m (light f r c b) (w.upd (.cell n r c) b.toNat) where
  sound := h.sound.upd (ℓ := .cell n r c) (by simp [isFlag])
  limit := ⟨h.limit.1, (core_upd _ _ _).trans h.limit.2⟩
  told := h.told
  image ℓ hl := by
    rw [← h.image ℓ hl]
    exact load_upd_ne _ _ _ _ (by rintro rfl; cases hl)
  grid r' c' hr' hc' := by
    by_cases e : r' = r ∧ c' = c
    · obtain ⟨rfl, rfl⟩ := e
      rw [show light f r' c' b r' c' = b by simp [light]]
      exact load_upd_self _ _ _ (by rw [h.grid _ _ hr hc]; rfl) (bool_lt_cell b)
    · rw [show light f r c b r' c' = f r' c' by simp [light, e], ← h.grid _ _ hr' hc']
      exact load_upd_ne _ (.cell n r c) (.cell n r' c') _ (by simp only [ne_eq, Loc.cell.injEq]; omega)

theorem setState (h : Lit env T us B n rows cols L z m f w) {r c : Nat} (hr : r < rows) (hc : c < cols) (b : Bool) :
    ∃ w', Ladder.setState r c b w = .ok ((), w') ∧ Lit env T us B n rows cols L z m (light f r c b) w' :=
  ⟨_, setState_ok h.sound.exec (by rw [h.grid _ _ hr hc]; rfl), h.upd_cell hr hc b⟩

theorem getState (h : Lit env T us B n rows cols L z m f w) {r c : Nat} (hr : r < rows) (hc : c < cols) :
    Ladder.getState r c w = .ok (f r c, w) := getState_ok h.sound.exec (h.grid _ _ hr hc)

/-- The power arriving at a cell. -/
def left (f : Nat → Nat → Bool) (r c : Nat) : Bool := if c = 0 then true else f r (c - 1)

theorem getLeft (h : Lit env T us B n rows cols L z m f w) {r c : Nat} (hr : r < rows) (hc : c < cols) :
    Ladder.getLeft r c w = .ok (left f r c, w) := by
  unfold Ladder.getLeft left
  split
  · rfl
  · exact h.getState hr (by omega)

theorem left_light {r c : Nat} {b : Bool} : left (light f r c b) r c = left f r c := by
  unfold left light
  split
  · rfl
  · rw [if_neg (by omega)]

theorem getData (h : Lit env T us B n rows cols L z m f w) {r c i : Nat} {x : Cell} (hx : cell? B n r c = some x) (hi : Readable B n r c i) :
    Ladder.getData env r c i w = .ok (now m (arg x i), w) := by
  obtain ⟨v, ho, hk, hv⟩ := hi
  have ha : arg x i = v := arg_of hx ho
  rw [ha]
  refine getData_ok h.sound.alike.fits h.sound.exec (by rw [h.sound.alike.operand]; exact ho) ?_
  rcases hv with h' | h' | h' | ⟨ℓ, hp, hl⟩
  · simp [value, now, h']
  · simp [value, now, h']
  · simp [value, now, h']
  · obtain ⟨y, hy⟩ := Sound.value_some h.sound.flags hk hp (h.sound.alike.has hl)
    rw [hy]
    have hr := h.image ℓ (register_place hp)
    have hn : v.type ≠ .NONE ∧ v.type ≠ .S ∧ v.type ≠ .INV := by
      refine ⟨?_, ?_, ?_⟩ <;> (intro e; simp [place, e] at hp)
    congr 1
    cases ht : v.type <;> simp_all [now, value]

theorem getPrev (h : Lit env T us B n rows cols L z m f w) {r c i : Nat} {x : Cell} (hx : cell? B n r c = some x) (hi : Recalled B n r c i) :
    Ladder.getPrev r c i w = .ok (before m (arg x i), w) := by
  obtain ⟨v, ho, hv⟩ := hi
  have ha : arg x i = v := arg_of hx ho
  rw [ha]
  have ho' : operand? w.ctx n r c i = some v := by rw [h.sound.alike.operand]; exact ho
  rcases hv with hn | ⟨ℓ, hp, hl⟩
  · simp [Ladder.getPrev, operandAt_ok h.sound.alike.fits h.sound.exec ho', prevValue, hn, before, prevPlace]
  · obtain ⟨y, hy⟩ := Option.isSome_iff_exists.1 (h.sound.alike.has hl)
    have : ∃ x, decode v.type y = some x := by
      have hfl := h.sound.flags ℓ y
      clear ha ho ho'
      unfold prevPlace at hp
      simp only at hp
      cases ht : v.type <;> simp only [ht] at hp <;> simp_all [decode]
      all_goals
        obtain ⟨-, rfl⟩ := hp
        exact hfl rfl
    obtain ⟨x, hx⟩ := this
    refine getPrev_ok h.sound.alike.fits h.sound.exec ho' ?_
    have := h.image ℓ (register_prevPlace hp)
    rw [hy] at this
    simp [prevOf, before, hp, hy, hx, ← this]

theorem setData (h : Lit env T us B n rows cols L z m f w) {r c i : Nat} {x : Cell} {v : Value} {y : W32} (hx : cell? B n r c = some x)
    (ho : operand? B n r c i = some v) (hb : isBoolKind v.type = true → y.toNat ≤ 1) :
    ∃ e w', Ladder.setData r c i y w = .ok (e, w') ∧ Lit env T us B n rows cols L z (put m (arg x i) y) f w' := by
  have ha : arg x i = v := arg_of hx ho
  rw [ha]
  have ho' : operand? w.ctx n r c i = some v := by rw [h.sound.alike.operand]; exact ho
  by_cases hd : writableKind v.type = true ∧ ∃ ℓ, place v = some ℓ ∧ (load w.ctx ℓ).isSome = true
  · obtain ⟨hk, ℓ, hp, hl⟩ := hd
    refine ⟨_, _, setData_ok h.sound.alike.fits h.sound.exec ho' hk hp hl, ?_⟩
    have hreg := register_place hp
    have hsz : y.toNat % ℓ.size = stored v.type y := by rw [place_size hp]
    refine ⟨h.sound.upd (ℓ := ℓ) (x := y.toNat % ℓ.size) ?_, ?_, h.told, fun ℓ' hr' => ?_, fun r' c' hr' hc' => ?_⟩
    · intro hf
      rw [Sound.isFlag_place hp] at hf
      exact Nat.le_trans (Nat.mod_le _ _) (hb hf)
    · exact ⟨h.limit.1, (core_upd _ _ _).trans h.limit.2⟩
    · by_cases e : ℓ' = ℓ
      · subst e
        refine (load_upd_self _ _ _ hl (Nat.mod_lt _ (Chg.size_pos _))).trans ?_
        simp [put, hk, hp, ← h.image ℓ' hr', hl, hsz]
      · refine (load_upd_ne _ _ _ _ (Ne.symm e)).trans ?_
        rw [h.image ℓ' hr']
        have : place v ≠ some ℓ' := by rw [hp]; rintro ⟨⟩; exact e rfl
        simp [put, this]
    · rw [← h.grid r' c' hr' hc']
      exact load_upd_ne _ _ _ _ (by rintro rfl; exact place_ne_cell hp)
  · obtain ⟨e, ctx', hv⟩ := writeValue_total h.sound.alike.fits v y
    have hrun : Ladder.setData r c i y w = .ok (e, { w with ctx := ctx' }) := by
      simp [Ladder.setData, getDataExec_ok h.sound.exec ho', hv]
    rcases writeValue_cases hv with ⟨-, rfl⟩ | ⟨-, hk, ℓ, hp, hl, -⟩
    · refine ⟨_, _, hrun, h.sound, h.limit, h.told, fun ℓ hr => ?_, h.grid⟩
      rw [h.image ℓ hr]
      unfold put
      rw [if_neg]
      rintro ⟨h1, h2, h3⟩
      exact hd ⟨h1, ℓ, h2, by rw [h.image ℓ hr]; exact h3⟩
    · exact absurd ⟨hk, ℓ, hp, hl⟩ hd

theorem binop (h : Lit env T us B n rows cols L z m f w) {r c : Nat} {x : Cell} {p : Bool} {g : W32 → W32 → Except UB W32} {y : W32} (hr : r < rows)
    (hc : c < cols) (hx : cell? B n r c = some x) (hp : left f r c = p) (h0 : Readable B n r c 0) (h1 : Readable B n r c 1)
    (h2 : Sink B n r c 2) (hg : p = true → g (now m (arg x 0)) (now m (arg x 1)) = .ok y) :
    ∃ w', Ladder.binop env g r c w = .ok (.ok, w') ∧
      Lit env T us B n rows cols L z (if p then put m (arg x 2) y else m) (light f r c p) w' := by
  obtain ⟨v, ho, hk⟩ := h2
  obtain ⟨w1, e1, h2⟩ := h.setState hr hc p
  have e0 : Ladder.getLeft r c w = .ok (p, w) := hp ▸ h.getLeft hr hc
  have e2 : Ladder.getLeft r c w1 = .ok (p, w1) := by rw [h2.getLeft hr hc, left_light, hp]
  cases p with
  | false => exact ⟨w1, by simp [Ladder.binop, e0, e1, e2], h2⟩
  | true =>
    obtain ⟨e, w2, h3, h4⟩ := h2.setData hx ho (y := y) fun e => absurd e (by rw [hk]; decide)
    exact ⟨w2, by simp [Ladder.binop, e0, e1, e2, h2.getData hx h0, h2.getData hx h1, hg rfl, h3], h4⟩

theorem cmpop (h : Lit env T us B n rows cols L z m f w) {r c : Nat} {x : Cell} {p q : Bool} {g : Int → Int → Bool} (hr : r < rows)
    (hc : c < cols) (hx : cell? B n r c = some x) (hp : left f r c = p) (h0 : Readable B n r c 0) (h1 : Readable B n r c 1)
    (hg : q = g (now m (arg x 0)).toInt (now m (arg x 1)).toInt) :
    ∃ w', Ladder.cmpop env g r c w = .ok (.ok, w') ∧ Lit env T us B n rows cols L z m (light f r c (p && q)) w' := by
  obtain ⟨w1, e1, h2⟩ := h.setState hr hc (p && q)
  have e0 : Ladder.getLeft r c w = .ok (p, w) := hp ▸ h.getLeft hr hc
  refine ⟨w1, ?_, h2⟩
  subst hg
  cases p <;> simp at e1 <;> simp [Ladder.cmpop, e0, h.getData hx h0, h.getData hx h1, e1]

/-- A store to a register that can be written. -/
theorem store (h : Lit env T us B n rows cols L z m f w) {r c i : Nat} {x : Cell} {y : W32} (hx : cell? B n r c = some x)
    (hs : Storable B false n r c i) :
    ∃ w', Ladder.setData r c i y w = .ok (.ok, w') ∧ Lit env T us B n rows cols L z (put m (arg x i) y) f w' := by
  obtain ⟨v, ℓ, ho, hk, hb, hp, hl⟩ := hs
  obtain ⟨e, w', h1, h2⟩ := h.setData (y := y) hx ho (by rw [hb rfl]; simp)
  rw [setData_ok h.sound.alike.fits h.sound.exec (by rw [h.sound.alike.operand]; exact ho) hk hp (h.sound.alike.has hl)] at h1
  cases h1
  exact ⟨_, setData_ok h.sound.alike.fits h.sound.exec (by rw [h.sound.alike.operand]; exact ho) hk hp (h.sound.alike.has hl), h2⟩

theorem shiftAmount_eq (a : W32) : shiftAmount a = places a := by
  unfold shiftAmount places
  have h1 := Int.tmod_lt_of_pos a.toInt (show (0 : Int) < 32 by decide)
  have h2 : -32 < a.toInt.tmod 32 := by
    have := Int.lt_tmod_of_pos a.toInt (show (0 : Int) < 32 by decide)
    omega
  have h3 := Int.tmod_add_mul_tdiv a.toInt 32
  simp only
  split <;> omega

theorem shiftop (h : Lit env T us B n rows cols L z m f w) {r c : Nat} {x : Cell} {p : Bool} {g : W32 → Nat → Except UB W32} {y : W32}
    (hr : r < rows) (hc : c < cols) (hx : cell? B n r c = some x) (hp : left f r c = p) (h0 : Readable B n r c 0)
    (h1 : Readable B n r c 1) (h2 : Storable B false n r c 0)
    (hg : g (now m (arg x 0)) (places (now m (arg x 1))) = .ok y) :
    ∃ w', Ladder.shiftop env g r c w = .ok (.ok, w') ∧ Lit env T us B n rows cols L z (put m (arg x 0) y) (light f r c p) w' := by
  obtain ⟨w1, e1, h3⟩ := h.store (y := y) hx h2
  obtain ⟨w2, e2, h4⟩ := h3.setState hr hc p
  have e3 : Ladder.getLeft r c w1 = .ok (p, w1) := hp ▸ h3.getLeft hr hc
  exact ⟨w2, by simp [Ladder.shiftop, h.getData hx h0, h.getData hx h1, shiftAmount_eq, hg, e1, e2, e3], h4⟩

theorem fnMOVE (h : Lit env T us B n rows cols L z m f w) {r c : Nat} {x : Cell} {p : Bool}
    (hr : r < rows) (hc : c < cols) (hx : cell? B n r c = some x) (hp : left f r c = p) (hw : MoveWell B n r c) :
    ∃ w', Ladder.fnMOVE env r c w = .ok (.ok, w') ∧
      Lit env T us B n rows cols L z (put m (arg x 1) (content m (arg x 0))) (light f r c p) w' := by
  obtain ⟨s, d, ℓ, ℓ', hs, hd, hq, ho, hq', ho', hk⟩ := hw
  have hst : Storable B false n r c 1 := by
    refine ⟨d, ℓ', hd, ?_, fun _ => ?_, hq', ho'⟩ <;>
      (rcases hk with ⟨-, hk⟩ | ⟨-, hk⟩ <;> cases hd : d.type <;> simp_all [integral, writableKind, isBoolKind])
  have ha : arg x 0 = s := arg_of hx hs
  have hstore : ∀ y, ∃ w', Ladder.moveStore r c y w = .ok (.ok, w') ∧ Lit env T us B n rows cols L z (put m (arg x 1) y) (light f r c p) w' := by
    intro y
    obtain ⟨w1, e1, h3⟩ := h.store (y := y) hx hst
    obtain ⟨w2, e2, h4⟩ := h3.setState hr hc p
    have e3 : Ladder.getLeft r c w1 = .ok (p, w1) := hp ▸ h3.getLeft hr hc
    exact ⟨w2, by simp [Ladder.moveStore, e1, e2, e3], h4⟩
  have hs' : operand? w.ctx n r c 0 = some s := by rw [h.sound.alike.operand]; exact hs
  have hd' : operand? w.ctx n r c 1 = some d := by rw [h.sound.alike.operand]; exact hd
  simp only [operand?, Option.bind_eq_some_iff] at hs' hd'
  obtain ⟨y, hy, hs'⟩ := hs'
  obtain ⟨y', hy', hd'⟩ := hd'
  rw [hy] at hy'
  obtain rfl := Option.some.inj hy'
  split at hs'
  case isFalse => cases hs'
  split at hd'
  case isFalse => cases hd'
  have hnn : ¬ (y.data.isNone = true ∨ y.dataQty < 2) := by
    intro h
    rcases h with h | h
    · cases hx : y.data with
      | none => rw [hx] at hs'; cases hs'
      | some l => rw [hx] at h; cases h
    · omega
  unfold Ladder.fnMOVE
  rw [bind_getCtx, bind_ok (lift_eq_ok.2 ⟨execCell_ok h.sound.exec hy, rfl⟩), if_neg hnn,
    bind_ok (lift_eq_ok.2 ⟨aget_eq_ok.2 hs', rfl⟩), bind_ok (lift_eq_ok.2 ⟨aget_eq_ok.2 hd', rfl⟩)]
  rcases hk with ⟨hk, hk'⟩ | ⟨hk, hk'⟩
  · have hi : isIntReg d.type = true := by cases h : d.type <;> simp_all [integral, isIntReg]
    have hread : Readable B n r c 0 := ⟨s, hs, by rintro e; simp [e, integral] at hk, .inr (.inr (.inr ⟨ℓ, hq, ho⟩))⟩
    have hcon : content m (arg x 0) = now m (arg x 0) := by
      rw [ha]; unfold content; cases h : s.type <;> first | rfl | simp [h, integral] at hk
    obtain ⟨w', e1, h1⟩ := hstore (content m (arg x 0))
    refine ⟨w', ?_, h1⟩
    rw [hcon] at e1
    have hrun : (Ladder.getData env r c 0 >>= fun x =>
        if isIntReg d.type then Ladder.moveStore r c x else Pure.pure .typeMismatch) w = .ok (.ok, w') := by
      rw [bind_ok (h.getData hx hread), if_pos hi]; exact e1
    cases h : s.type <;> simp [h, integral] at hk <;> exact hrun
  · have hpl := hq
    rw [hk]
    dsimp only
    simp only [place, hk] at hq
    split at hq
    case isFalse => cases hq
    cases hq
    have := h.sound.alike.has ho
    simp only [load, Option.isSome_map] at this
    obtain ⟨b, hb⟩ := Option.isSome_iff_exists.1 this
    have hlt := lt_of_at? h.sound.alike.fits.R hb
    have hcon : content m (arg x 0) = b := by
      have := h.image (.R s.raw.toNat) rfl
      simp only [load, hb, Option.map_some] at this
      rw [ha]
      simp [content, hk, hpl, ← this]
    rw [if_neg (by omega), bind_ok (lift_eq_ok.2 ⟨aget_eq_ok.2 hb, rfl⟩), if_pos hk', hcon]
    exact hstore b

/-! ### Timers -/

theorem change (h : Lit env T us B n rows cols L z m f w) {ℓ : Loc} {y : Nat} {m' : Image} (hr : register ℓ = true) (hl : (load w.ctx ℓ).isSome)
    (hy : y < ℓ.size) (hf : isFlag ℓ = true → y ≤ 1) (hm : ∀ ℓ', m' ℓ' = if ℓ' = ℓ then some y else m ℓ') :
    Lit env T us B n rows cols L z m' f (w.upd ℓ y) where
  sound := h.sound.upd hf
  limit := ⟨h.limit.1, (core_upd _ _ _).trans h.limit.2⟩
  told := h.told
  image ℓ' hr' := by
    rw [hm]
    split
    · rename_i e; subst e; exact load_upd_self _ _ _ hl hy
    · rename_i e; rw [← h.image _ hr']; exact load_upd_ne _ _ _ _ (Ne.symm e)
  grid r' c' hr' hc' := by
    rw [← h.grid r' c' hr' hc']
    exact load_upd_ne _ _ _ _ (by rintro rfl; cases hr)

section timer

variable {v p : Value} {t : Watch} {r c : Nat} (hi : v.raw.toNat < 2^31)

include hi

theorem getTr (h : Lit env T us B n rows cols L z (wound m v.raw.toNat t) f w) : Ladder.getB .Tr v.i32 w = .ok (t.running, w) :=
  getB_ok hi (by rw [show BArea.Tr.loc v.raw.toNat = .Tr v.raw.toNat from rfl, h.image _ rfl]; simp [wound])

theorem getTd (h : Lit env T us B n rows cols L z (wound m v.raw.toNat t) f w) : Ladder.getB .Td v.i32 w = .ok (t.done, w) :=
  getB_ok hi (by rw [show BArea.Td.loc v.raw.toNat = .Td v.raw.toNat from rfl, h.image _ rfl]; simp [wound])

theorem getTimer (h : Lit env T us B n rows cols L z (wound m v.raw.toNat t) f w) :
    Ladder.getTimer v.i32 w = .ok (⟨BitVec.ofNat 64 t.stamp, BitVec.ofNat 32 t.acc⟩, w) :=
  getTimer_ok hi (by rw [h.image _ rfl]; simp [wound]) (by rw [h.image _ rfl]; simp [wound])

theorem setTr (h : Lit env T us B n rows cols L z (wound m v.raw.toNat t) f w) (b : Bool) :
    ∃ w', Ladder.setB .Tr v.i32 b w = .ok ((), w') ∧ w'.tick = w.tick ∧
      Lit env T us B n rows cols L z (wound m v.raw.toNat { t with running := b }) f w' := by
  have hl : (load w.ctx (.Tr v.raw.toNat)).isSome := by rw [h.image _ rfl]; simp [wound]
  refine ⟨_, setB_ok hi hl, rfl, h.change (ℓ := .Tr v.raw.toNat) rfl hl (by cases b <;> simp [Loc.size]) (fun _ => by cases b <;> decide)
    fun ℓ => ?_⟩
  cases ℓ <;> simp [wound] <;> (try split) <;> simp_all

theorem setTd (h : Lit env T us B n rows cols L z (wound m v.raw.toNat t) f w) (b : Bool) :
    ∃ w', Ladder.setB .Td v.i32 b w = .ok ((), w') ∧ w'.tick = w.tick ∧
      Lit env T us B n rows cols L z (wound m v.raw.toNat { t with done := b }) f w' := by
  have hl : (load w.ctx (.Td v.raw.toNat)).isSome := by rw [h.image _ rfl]; simp [wound]
  refine ⟨_, setB_ok hi hl, rfl, h.change (ℓ := .Td v.raw.toNat) rfl hl (by cases b <;> simp [Loc.size]) (fun _ => by cases b <;> decide)
    fun ℓ => ?_⟩
  cases ℓ <;> simp [wound] <;> (try split) <;> simp_all

theorem setAcc (h : Lit env T us B n rows cols L z (wound m v.raw.toNat t) f w) (x : W32) :
    ∃ w', Ladder.setAcc v.i32 x w = .ok ((), w') ∧ w'.tick = w.tick ∧
      Lit env T us B n rows cols L z (wound m v.raw.toNat { t with acc := x.toNat }) f w' := by
  have hl : (load w.ctx (.acc v.raw.toNat)).isSome := by rw [h.image _ rfl]; simp [wound]
  refine ⟨_, setAcc_ok hi hl, rfl, h.change rfl hl x.isLt (by simp [isFlag]) fun ℓ => ?_⟩
  cases ℓ <;> simp [wound] <;> (try split) <;> simp_all

theorem setStamp (h : Lit env T us B n rows cols L z (wound m v.raw.toNat t) f w) (x : W64) :
    ∃ w', Ladder.setStamp v.i32 x w = .ok ((), w') ∧ w'.tick = w.tick ∧
      Lit env T us B n rows cols L z (wound m v.raw.toNat { t with stamp := x.toNat }) f w' := by
  have hl : (load w.ctx (.stamp v.raw.toNat)).isSome := by rw [h.image _ rfl]; simp [wound]
  refine ⟨_, setStamp_ok hi hl, rfl, h.change rfl hl x.isLt (by simp [isFlag]) fun ℓ => ?_⟩
  cases ℓ <;> simp [wound] <;> (try split) <;> simp_all

omit hi in
theorem callMillis (h : Lit env T us B n rows cols L z m f w) (hm : B.millis = true) :
    ∃ w', Ladder.callMillis env w = .ok (env.clock w.tick, w') ∧ w'.tick = w.tick + 1 ∧ Lit env T us B n rows cols L z m f w' := by
  have : w.ctx.millis = true := by rw [h.sound.alike.millis]; exact hm
  refine ⟨{ w with tick := w.tick + 1 }, ?_, rfl, h.same ⟨h.sound.alike, h.sound.flags, h.sound.exec, h.sound.clean, by simp, by simp⟩ ⟨rfl, rfl⟩ (fun _ => rfl) (by simp)⟩
  unfold Ladder.callMillis
  rw [if_pos this]

omit hi in
theorem factor {k : Reg} (h : k.code ≤ 4) : ∃ u : W32, basetimeFactor k = .ok u ∧ u.toNat = unit k ∧ 0 < unit k := by
  cases k <;> simp [Reg.code] at h <;> exact ⟨_, rfl, rfl, by decide⟩

omit hi in
theorem lapse_eq (now : W64) {s : Nat} (hs : s < 2^64) : (now - BitVec.ofNat 64 s).toNat = lapse now s := by
  have := now.isLt
  unfold lapse
  rw [BitVec.toNat_sub, BitVec.toNat_ofNat, Nat.mod_eq_of_lt hs]
  congr 1
  omega

omit hi in
theorem accOf_eq (now : W64) {s : Nat} (hs : s < 2^64) {u : W32} : (accOf now (BitVec.ofNat 64 s) u).toNat = lapse now s / u.toNat % 2^16 := by
  unfold accOf
  have hu := u.isLt
  rw [BitVec.toNat_setWidth, BitVec.toNat_setWidth, BitVec.toNat_udiv, lapse_eq now hs, BitVec.toNat_setWidth,
    Nat.mod_eq_of_lt (show u.toNat < 2^64 by omega), Nat.mod_eq_of_lt (show lapse now s / u.toNat % 2^16 < 2^32 by omega)]

omit hi in
theorem elapsed_eq (now : W64) {s : Nat} (hs : s < 2^64) {l u : W32} :
    elapsed now (BitVec.ofNat 64 s) l u = decide (l.toNat * u.toNat % 2^32 ≤ lapse now s) := by
  unfold elapsed
  rw [BitVec.toNat_setWidth, BitVec.toNat_mul, lapse_eq now hs, Nat.mod_eq_of_lt (show l.toNat * u.toNat % 2^32 < 2^64 by omega)]

/-- The timer moves on. -/
theorem go (h : Lit env T us B n rows cols L z (wound m v.raw.toNat t) f w) (hp : operand? B n r c 1 = some p) (hb : p.type.code ≤ 4)
    (hm : B.millis = true) :
    ∃ w1 w' a b, timerRun env r c v.i32 w = .ok ((), w1) ∧ timerDone env r c v.i32 w1 = .ok ((), w') ∧ w.tick ≤ a ∧ a ≤ b ∧ b ≤ w'.tick ∧
      ∀ s, Lit env T us B n rows cols L z (wound m v.raw.toNat (moved p.raw.toNat (unit p.type) ⟨s, env.clock a, env.clock b⟩ t)) f w' := by
  obtain ⟨u, hu, hu', -⟩ := factor hb
  have hst : t.stamp < 2^64 := by
    have := load_lt (h.image (.stamp v.raw.toNat) rfl |>.trans (by simp [wound] : _ = some t.stamp))
    exact this
  have hpe : ∀ {w : World} {m : Image}, Lit env T us B n rows cols L z m f w → getDataExec r c 1 w = .ok (p, w) := fun h' =>
    getDataExec_ok h'.sound.exec (by rw [h'.sound.alike.operand]; exact hp)
  cases hrun : t.running with
  | false =>
    have e := h.getTr hi
    rw [hrun] at e
    exact ⟨w, w, w.tick, w.tick, by simp [timerRun, e], by simp [timerDone, e], by simp, by simp, by simp, fun s => by simpa [moved, hrun] using h⟩
  | true =>
    obtain ⟨w1, e1, t1, h1⟩ := h.callMillis hm
    obtain ⟨w2, e2, t2, h2⟩ := h1.setAcc hi (accOf (env.clock w.tick) (BitVec.ofNat 64 t.stamp) u)
    rw [accOf_eq _ hst, hu'] at h2
    obtain ⟨w3, e3, t3, h3⟩ := h2.callMillis hm
    have r1 : timerRun env r c v.i32 w = .ok ((), w2) := by
      simp [timerRun, h.getTr hi, hrun, e1, h1.getTimer hi, hpe h1, hu, e2]
    have r2 := h2.getTr hi
    simp only [hrun] at r2
    cases hel : elapsed (env.clock w2.tick) (BitVec.ofNat 64 t.stamp) p.raw u with
    | false =>
      refine ⟨w2, w3, w.tick, w2.tick, r1, ?_, by omega, by omega, by omega, fun s => ?_⟩
      · simp [timerDone, r2, e3, h3.getTimer hi, hpe h3, hu, hel]
      · rw [elapsed_eq _ hst, hu'] at hel
        simp only [decide_eq_false_iff_not] at hel
        simpa [moved, hrun, hel] using h3
    | true =>
      obtain ⟨w4, e4, t4, h4⟩ := h3.setTr hi false
      obtain ⟨w5, e5, t5, h5⟩ := h4.setTd hi true
      obtain ⟨w6, e6, t6, h6⟩ := h5.setAcc hi p.raw
      refine ⟨w2, w6, w.tick, w2.tick, r1, ?_, by omega, by omega, by omega, fun s => ?_⟩
      · simp [timerDone, r2, e3, h3.getTimer hi, hpe h3, hu, hel, e4, e5, e6]
      · rw [elapsed_eq _ hst, hu'] at hel
        simp only [decide_eq_true_eq] at hel
        simpa [moved, hrun, hel] using h6

/-- The timer starts. -/
theorem start (h : Lit env T us B n rows cols L z (wound m v.raw.toNat t) f w) (hm : B.millis = true) :
    ∃ w1 w2 w', Ladder.setB .Tr v.i32 true w = .ok ((), w1) ∧ Ladder.callMillis env w1 = .ok (env.clock w.tick, w2) ∧
      Ladder.setStamp v.i32 (env.clock w.tick) w2 = .ok ((), w') ∧ w'.tick = w.tick + 1 ∧
      Lit env T us B n rows cols L z (wound m v.raw.toNat { t with running := true, stamp := (env.clock w.tick).toNat }) f w' := by
  obtain ⟨w1, e1, t1, h1⟩ := h.setTr hi true
  obtain ⟨w2, e2, t2, h2⟩ := h1.callMillis hm
  rw [t1] at e2 t2
  obtain ⟨w3, e3, t3, h3⟩ := h2.setStamp hi (env.clock w.tick)
  exact ⟨w1, w2, w3, e1, e2, e3, by omega, h3⟩

/-- The timer is cleared. -/
theorem clear (h : Lit env T us B n rows cols L z (wound m v.raw.toNat t) f w) :
    ∃ w1 w2 w', Ladder.setAcc v.i32 0#32 w = .ok ((), w1) ∧ Ladder.setB .Tr v.i32 false w1 = .ok ((), w2) ∧
      Ladder.setB .Td v.i32 false w2 = .ok ((), w') ∧ w'.tick = w.tick ∧ Lit env T us B n rows cols L z (wound m v.raw.toNat (rewound t)) f w' := by
  obtain ⟨w1, e1, t1, h1⟩ := h.setAcc hi 0
  obtain ⟨w2, e2, t2, h2⟩ := h1.setTr hi false
  obtain ⟨w3, e3, t3, h3⟩ := h2.setTd hi false
  exact ⟨w1, w2, w3, e1, e2, e3, by omega, h3⟩

end timer

/-! ### Counters -/

section counter

variable {v : Value} {t : Tally} (hi : v.raw.toNat < 2^31)

include hi

theorem getCr (h : Lit env T us B n rows cols L z (noted m v.raw.toNat t) f w) : Ladder.getB .Cr v.i32 w = .ok (t.counted, w) :=
  getB_ok hi (by rw [show BArea.Cr.loc v.raw.toNat = .Cr v.raw.toNat from rfl, h.image _ rfl]; simp [noted])

theorem getCd (h : Lit env T us B n rows cols L z (noted m v.raw.toNat t) f w) : Ladder.getB .Cd v.i32 w = .ok (t.done, w) :=
  getB_ok hi (by rw [show BArea.Cd.loc v.raw.toNat = .Cd v.raw.toNat from rfl, h.image _ rfl]; simp [noted])

theorem getC (h : Lit env T us B n rows cols L z (noted m v.raw.toNat t) f w) : Ladder.getC v.i32 w = .ok (BitVec.ofNat 32 t.count, w) :=
  getC_ok hi (by rw [h.image _ rfl]; simp [noted])

omit hi in
theorem count_lt (h : Lit env T us B n rows cols L z (noted m v.raw.toNat t) f w) : t.count < 2^32 :=
  load_lt (h.image (.C v.raw.toNat) rfl |>.trans (by simp [noted] : _ = some t.count))

theorem setCr (h : Lit env T us B n rows cols L z (noted m v.raw.toNat t) f w) (b : Bool) :
    ∃ w', Ladder.setB .Cr v.i32 b w = .ok ((), w') ∧ Lit env T us B n rows cols L z (noted m v.raw.toNat { t with counted := b }) f w' := by
  have hl : (load w.ctx (.Cr v.raw.toNat)).isSome := by rw [h.image _ rfl]; simp [noted]
  refine ⟨_, setB_ok hi hl, h.change (ℓ := .Cr v.raw.toNat) rfl hl (by cases b <;> simp [Loc.size]) (fun _ => by cases b <;> decide)
    fun ℓ => ?_⟩
  cases ℓ <;> simp [noted] <;> (try split) <;> simp_all

theorem setCd (h : Lit env T us B n rows cols L z (noted m v.raw.toNat t) f w) (b : Bool) :
    ∃ w', Ladder.setB .Cd v.i32 b w = .ok ((), w') ∧ Lit env T us B n rows cols L z (noted m v.raw.toNat { t with done := b }) f w' := by
  have hl : (load w.ctx (.Cd v.raw.toNat)).isSome := by rw [h.image _ rfl]; simp [noted]
  refine ⟨_, setB_ok hi hl, h.change (ℓ := .Cd v.raw.toNat) rfl hl (by cases b <;> simp [Loc.size]) (fun _ => by cases b <;> decide)
    fun ℓ => ?_⟩
  cases ℓ <;> simp [noted] <;> (try split) <;> simp_all

theorem setC (h : Lit env T us B n rows cols L z (noted m v.raw.toNat t) f w) (x : W32) :
    ∃ w', Ladder.setC v.i32 x w = .ok ((), w') ∧ Lit env T us B n rows cols L z (noted m v.raw.toNat { t with count := x.toNat }) f w' := by
  have hl : (load w.ctx (.C v.raw.toNat)).isSome := by rw [h.image _ rfl]; simp [noted]
  refine ⟨_, setC_ok hi hl, h.change (ℓ := .C v.raw.toNat) rfl hl x.isLt (by simp [isFlag]) fun ℓ => ?_⟩
  cases ℓ <;> simp [noted] <;> (try split) <;> simp_all

end counter

/-- Power states with those of a cell and of the one below it changed. -/
def lights (f : Nat → Nat → Bool) (r c : Nat) (out drop : Bool) : Nat → Nat → Bool := light (light f r c out) (r + 1) c drop

theorem lights_eq (r c : Nat) (out drop : Bool) : lights f r c out drop = light (light f (r + 1) c drop) r c out := by
  funext r' c'
  unfold lights light
  split
  · rename_i e; rw [if_neg (by omega)]
  · rfl

theorem lights_stay {r c : Nat} {out : Bool} (h : f (r + 1) c = false) : lights f r c out false = light f r c out := by
  funext r' c'
  unfold lights light
  split
  · rename_i e; rw [if_neg (by omega), e.1, e.2, h]
  · rfl

theorem light_light (r c : Nat) (a b : Bool) : light (light f r c a) r c b = light f r c b := by
  funext r' c'
  unfold light
  split <;> rfl

theorem light_self {r c : Nat} {b : Bool} (h : f r c = b) : light f r c b = f := by
  funext r' c'
  unfold light
  split
  · rename_i e; rw [e.1, e.2, h]
  · rfl

theorem light_comm {r r' c c' : Nat} {a b : Bool} (h : ¬ (r = r' ∧ c = c')) : light (light f r c a) r' c' b = light (light f r' c' b) r c a := by
  funext x y
  unfold light
  split
  · rename_i e; rw [if_neg (by omega)]
  · rfl

theorem left_below {r c : Nat} {b : Bool} : left (light f (r + 1) c b) r c = left f r c := by
  unfold left light
  split
  · rfl
  · rw [if_neg (by omega)]

/-- Bits that are flags. -/
theorem flag (h : Lit env T us B n rows cols L z m f w) {ℓ : Loc} (hr : register ℓ = true) (hf : isFlag ℓ = true) (ho : Owns B ℓ) :
    some (decide (m ℓ = some 1)).toNat = m ℓ := by
  obtain ⟨y, hy⟩ := Option.isSome_iff_exists.1 (h.sound.alike.has ho)
  have h1 := h.sound.flags ℓ y hf hy
  rw [h.image ℓ hr] at hy
  rw [hy]
  rcases Nat.le_one_iff_eq_zero_or_eq_one.1 h1 with rfl | rfl <;> rfl

theorem some_getD {o : Option Nat} (h : o.isSome = true) : some (o.getD 0) = o := by
  obtain ⟨x, rfl⟩ := Option.isSome_iff_exists.1 h
  rfl

theorem wound_self (h : Lit env T us B n rows cols L z m f w) {i : Nat} (ha : Owns B (.acc i)) (hr : Owns B (.Tr i)) (hd : Owns B (.Td i)) :
    wound m i (Logic.watch m i) = m := by
  obtain ⟨h1, h2⟩ := h.sound.has_stamp ha
  rw [h.image _ rfl] at h1 h2
  have h3 := h.flag rfl rfl hr
  have h4 := h.flag rfl rfl hd
  funext ℓ
  cases ℓ <;> simp only [wound, Logic.watch]
  all_goals (split <;> (try rfl); rename_i e; subst e)
  · exact h4
  · exact h3
  · exact some_getD h1
  · exact some_getD h2

theorem noted_self (h : Lit env T us B n rows cols L z m f w) {i : Nat} (ha : Owns B (.C i)) (hr : Owns B (.Cr i)) (hd : Owns B (.Cd i)) :
    noted m i (tally m i) = m := by
  have h1 := h.sound.alike.has ha
  rw [h.image _ rfl] at h1
  have h3 := h.flag rfl rfl hr
  have h4 := h.flag rfl rfl hd
  funext ℓ
  cases ℓ <;> simp only [noted, tally]
  all_goals (split <;> (try rfl); rename_i e; subst e)
  · exact h4
  · exact h3
  · exact some_getD h1

/-! ### Instructions of two rows -/

theorem reading (env : Env) {lo a b c hi : Nat} (h1 : lo ≤ a) (h2 : a ≤ b) (h3 : b ≤ c) (h4 : c ≤ hi) :
    Told env lo hi [⟨env.clock a, env.clock b, env.clock c⟩] := .more h1 h2 h3 (.done h4)

section tall

variable {r c : Nat} {x : Cell}

theorem setBoth (h : Lit env T us B n rows cols L z m f w) (hr : r + 1 < rows) (hc : c < cols) (out drop : Bool) :
    ∃ w1 w', Ladder.setState (r + 1) c drop w = .ok ((), w1) ∧ Ladder.setState r c out w1 = .ok ((), w') ∧ w1.tick = w.tick ∧ w'.tick = w.tick ∧
      Lit env T us B n rows cols L z m (light f (r + 1) c drop) w1 ∧ Lit env T us B n rows cols L z m (lights f r c out drop) w' := by
  have h1 := h.upd_cell hr hc drop
  have h2 := h1.upd_cell (r := r) (by omega) hc out
  refine ⟨_, _, setState_ok h.sound.exec (by rw [h.grid _ _ hr hc]; rfl), setState_ok h1.sound.exec (Option.isSome_iff_exists.2 ⟨_, h1.grid r c (by omega) hc⟩),
    rfl, rfl, h1, ?_⟩
  rw [lights_eq]
  exact h2

theorem fnTON (h : Lit env T us B n rows cols L z m f w) (hr : r + 1 < rows) (hc : c < cols) (hx : cell? B n r c = some x)
    (hw : TimerWell B n r c) :
    ∃ q w' t, Ladder.fnTON env r c w = .ok (.ok, w') ∧
      t = timed .TON (left f r c) (arg x 1).raw.toNat (unit (arg x 1).type) q (Logic.watch m (arg x 0).raw.toNat) ∧ Told env w.tick w'.tick [q] ∧
      Lit env T us B n rows cols L z (wound m (arg x 0).raw.toNat t) (lights f r c (passes .TON (left f r c) t) t.running) w' := by
  obtain ⟨⟨v, ho, ht, hi, ha, hr', hd⟩, ⟨p, hp, hb⟩, hbl, hm⟩ := hw
  rw [arg_of hx ho, arg_of hx hp]
  have h0 := h
  rw [← h.wound_self ha hr' hd] at h0
  generalize Logic.watch m v.raw.toNat = t at h0 ⊢
  have hg : getDataExec r c 0 w = .ok (v, w) := getDataExec_ok h.sound.exec (by rw [h.sound.alike.operand]; exact ho)
  have hl := h.getLeft (r := r) (by omega) hc
  generalize left f r c = l at hl ⊢
  cases l with
  | false =>
    obtain ⟨w1, w2, w3, e1, e2, e3, t3, h3⟩ := h0.clear hi
    have g3 := h3.getTr hi
    simp only [rewound] at g3
    obtain ⟨w4, w5, e4, e5, t4, t5, h4, h5⟩ := h3.setBoth hr hc false false
    have g4 := h4.getTd hi
    simp only [rewound] at g4
    refine ⟨⟨env.clock w.tick, env.clock w.tick, env.clock w.tick⟩, w5, _, ?_, rfl, reading env (Nat.le_refl _) (Nat.le_refl _) (Nat.le_refl _) (by omega), h5⟩
    simp [Ladder.fnTON, hl, hg, e1, e2, e3, timerRun, timerDone, g3, e4, g4, e5]
  | true =>
    simp only [timed, if_true, passes]
    by_cases hs : (t.running || t.done) = true
    · obtain ⟨w1, w2, a, b, e1, e2, l1, l2, l3, h2⟩ := h0.go hi hp hb hm
      have h2 := h2 (env.clock w.tick)
      generalize hq : (⟨env.clock w.tick, env.clock a, env.clock b⟩ : Reading) = q at h2
      generalize ht' : moved p.raw.toNat (unit p.type) q t = t' at h2
      obtain ⟨w4, w5, e4, e5, t4, t5, h4, h5⟩ := h2.setBoth hr hc t'.done t'.running
      refine ⟨q, w5, t', ?_, by simp [begun, hs, ht'], by rw [← hq]; exact reading env (Nat.le_refl _) l1 l2 (by omega), h5⟩
      have hst : t.done = false → t.running = true := by
        cases h : t.done <;> simp [h] at hs ⊢; exact hs
      cases htd : t.done <;> simp [Ladder.fnTON, hl, hg, h0.getTd hi, h0.getTr hi, htd, e1, e2, h2.getTr hi, h4.getTd hi, e4, e5]
      simp [hst htd]
    · obtain ⟨v1, v2, v3, d1, d2, d3, td, h1⟩ := h0.start hi hm
      obtain ⟨w1, w2, a, b, e1, e2, l1, l2, l3, h2⟩ := h1.go hi hp hb hm
      have h2 := h2 (env.clock w.tick)
      generalize hq : (⟨env.clock w.tick, env.clock a, env.clock b⟩ : Reading) = q at h2
      generalize ht' : moved p.raw.toNat (unit p.type) q { t with running := true, stamp := (env.clock w.tick).toNat } = t' at h2
      obtain ⟨w4, w5, e4, e5, t4, t5, h4, h5⟩ := h2.setBoth hr hc t'.done t'.running
      refine ⟨q, w5, t', ?_, by simp [begun, hs, ← ht', ← hq], by rw [← hq]; exact reading env (Nat.le_refl _) (by omega) l2 (by omega), h5⟩
      simp only [Bool.or_eq_true, not_or, Bool.not_eq_true] at hs
      simp [Ladder.fnTON, hl, hg, h0.getTd hi, h0.getTr hi, hs.1, hs.2, d1, d2, d3, e1, e2, h2.getTr hi, h4.getTd hi, e4, e5]

theorem fnTOF (h : Lit env T us B n rows cols L z m f w) (hr : r + 1 < rows) (hc : c < cols) (hx : cell? B n r c = some x)
    (hw : TimerWell B n r c) :
    ∃ q w' t, Ladder.fnTOF env r c w = .ok (.ok, w') ∧
      t = timed .TOF (left f r c) (arg x 1).raw.toNat (unit (arg x 1).type) q (Logic.watch m (arg x 0).raw.toNat) ∧ Told env w.tick w'.tick [q] ∧
      Lit env T us B n rows cols L z (wound m (arg x 0).raw.toNat t) (lights f r c (passes .TOF (left f r c) t) t.running) w' := by
  obtain ⟨⟨v, ho, ht, hi, ha, hr', hd⟩, ⟨p, hp, hb⟩, hbl, hm⟩ := hw
  rw [arg_of hx ho, arg_of hx hp]
  have h0 := h
  rw [← h.wound_self ha hr' hd] at h0
  generalize Logic.watch m v.raw.toNat = t at h0 ⊢
  have hg : getDataExec r c 0 w = .ok (v, w) := getDataExec_ok h.sound.exec (by rw [h.sound.alike.operand]; exact ho)
  have hl := h.getLeft (r := r) (by omega) hc
  have hl2 : ∀ {w' : World} {m' : Image} {b : Bool}, Lit env T us B n rows cols L z m' (light f (r + 1) c b) w' →
      Ladder.getLeft r c w' = .ok (left f r c, w') := fun h' => by rw [h'.getLeft (by omega) hc, left_below]
  generalize left f r c = l at hl hl2 ⊢
  cases l with
  | true =>
    obtain ⟨w1, w2, w3, e1, e2, e3, t3, h3⟩ := h0.clear hi
    have g3 := h3.getTr hi
    simp only [rewound] at g3
    obtain ⟨w4, w5, e4, e5, t4, t5, h4, h5⟩ := h3.setBoth hr hc true false
    refine ⟨⟨env.clock w.tick, env.clock w.tick, env.clock w.tick⟩, w5, _, ?_, rfl, reading env (Nat.le_refl _) (Nat.le_refl _) (Nat.le_refl _) (by omega), h5⟩
    simp [Ladder.fnTOF, hl, hg, e1, e2, e3, g3, e4, e5, hl2 h4]
  | false =>
    simp only [timed, Bool.false_eq_true, if_false, passes, Bool.false_or]
    by_cases hs : (t.running || t.done) = true
    · obtain ⟨w1, w2, a, b, e1, e2, l1, l2, l3, h2⟩ := h0.go hi hp hb hm
      have h2 := h2 (env.clock w.tick)
      generalize hq : (⟨env.clock w.tick, env.clock a, env.clock b⟩ : Reading) = q at h2
      generalize ht' : moved p.raw.toNat (unit p.type) q t = t' at h2
      obtain ⟨w4, w5, e4, e5, t4, t5, h4, h5⟩ := h2.setBoth hr hc t'.running t'.running
      refine ⟨q, w5, t', ?_, by simp [begun, hs, ht'], by rw [← hq]; exact reading env (Nat.le_refl _) l1 l2 (by omega), h5⟩
      have hst : t.running = false → t.done = true := by
        cases h : t.running <;> simp [h] at hs ⊢; exact hs
      cases htd : t.running <;> simp [Ladder.fnTOF, hl, hg, h0.getTd hi, h0.getTr hi, htd, e1, e2, h2.getTr hi, h4.getTr hi, e4, e5, hl2 h4]
      simp [hst htd]
    · obtain ⟨v1, v2, v3, d1, d2, d3, td, h1⟩ := h0.start hi hm
      obtain ⟨w1, w2, a, b, e1, e2, l1, l2, l3, h2⟩ := h1.go hi hp hb hm
      have h2 := h2 (env.clock w.tick)
      generalize hq : (⟨env.clock w.tick, env.clock a, env.clock b⟩ : Reading) = q at h2
      generalize ht' : moved p.raw.toNat (unit p.type) q { t with running := true, stamp := (env.clock w.tick).toNat } = t' at h2
      obtain ⟨w4, w5, e4, e5, t4, t5, h4, h5⟩ := h2.setBoth hr hc t'.running t'.running
      refine ⟨q, w5, t', ?_, by simp [begun, hs, ← ht', ← hq], by rw [← hq]; exact reading env (Nat.le_refl _) (by omega) l2 (by omega), h5⟩
      simp only [Bool.or_eq_true, not_or, Bool.not_eq_true] at hs
      simp [Ladder.fnTOF, hl, hg, h0.getTd hi, h0.getTr hi, hs.1, hs.2, d1, d2, d3, e1, e2, h2.getTr hi, h4.getTr hi, e4, e5, hl2 h4]

theorem fnTP (h : Lit env T us B n rows cols L z m f w) (hr : r + 1 < rows) (hc : c < cols) (hx : cell? B n r c = some x)
    (hw : TimerWell B n r c) :
    ∃ q w' t, Ladder.fnTP env r c w = .ok (.ok, w') ∧
      t = timed .TP (left f r c) (arg x 1).raw.toNat (unit (arg x 1).type) q (Logic.watch m (arg x 0).raw.toNat) ∧ Told env w.tick w'.tick [q] ∧
      Lit env T us B n rows cols L z (wound m (arg x 0).raw.toNat t) (lights f r c (passes .TP (left f r c) t) t.running) w' := by
  obtain ⟨⟨v, ho, ht, hi, ha, hr', hd⟩, ⟨p, hp, hb⟩, hbl, hm⟩ := hw
  rw [arg_of hx ho, arg_of hx hp]
  have h0 := h
  rw [← h.wound_self ha hr' hd] at h0
  generalize Logic.watch m v.raw.toNat = t at h0 ⊢
  have ho' : operand? w.ctx n r c 0 = some v := by rw [h.sound.alike.operand]; exact ho
  have hg : getDataExec r c 0 w = .ok (v, w) := getDataExec_ok h.sound.exec ho'
  have hprev : Ladder.getPrev r c 0 w = .ok (BitVec.ofNat 32 t.acc, w) := by
    have hy := h0.image (.acc v.raw.toNat) rfl
    have hz : wound m v.raw.toNat t (.acc v.raw.toNat) = some t.acc := by simp [wound]
    rw [hz] at hy
    obtain ⟨k, hk⟩ := at?_of_map (f := fun t : Timer => t.acc.toNat) hy
    have hk' : k.acc = BitVec.ofNat 32 t.acc := by
      simp only [load, hk, Option.map_some, Option.some.injEq] at hy
      rw [← hy, BitVec.ofNat_toNat, BitVec.setWidth_eq]
    simp [Ladder.getPrev, operandAt_ok h.sound.alike.fits h.sound.exec ho', prevValue, ht, agetI_raw hi, aget_eq_ok.2 hk, Except.map, hk']
  have hacc : (BitVec.ofNat 32 t.acc = 0#32) ↔ t.acc = 0 := by
    have : t.acc < 2^32 := load_lt (h0.image (.acc v.raw.toNat) rfl |>.trans (by simp [wound] : _ = some t.acc))
    constructor
    · intro e
      have := congrArg BitVec.toNat e
      simp only [BitVec.toNat_ofNat] at this
      omega
    · intro e; rw [e]
  have hl := h.getLeft (r := r) (by omega) hc
  generalize left f r c = l at hl ⊢
  simp only [timed, passes]
  by_cases hs : (l && !t.running && decide (t.acc = 0)) = true
  · obtain ⟨v1, v2, v3, d1, d2, d3, td, h1⟩ := h0.start hi hm
    obtain ⟨w1, w2, a, b, e1, e2, l1, l2, l3, h2⟩ := h1.go hi hp hb hm
    have h2 := h2 (env.clock w.tick)
    generalize hq : (⟨env.clock w.tick, env.clock a, env.clock b⟩ : Reading) = q at h2
    generalize ht' : moved p.raw.toNat (unit p.type) q { t with running := true, stamp := (env.clock w.tick).toNat } = t' at h2
    obtain ⟨w4, w5, e4, e5, t4, t5, h4, h5⟩ := h2.setBoth hr hc t'.running t'.running
    refine ⟨q, w5, t', ?_, by rw [if_pos hs, ← ht', ← hq], by rw [← hq]; exact reading env (Nat.le_refl _) (by omega) l2 (by omega), h5⟩
    simp only [Bool.and_eq_true, Bool.not_eq_true', decide_eq_true_eq] at hs
    simp [Ladder.fnTP, hl, hg, hprev, hs.1.1, hs.1.2, hs.2, h0.getTr hi, d1, d2, d3, e1, e2, h2.getTr hi, h4.getTr hi, e4, e5]
  · obtain ⟨w1, w2, a, b, e1, e2, l1, l2, l3, h2⟩ := h0.go hi hp hb hm
    have h2 := h2 (env.clock w.tick)
    generalize hq : (⟨env.clock w.tick, env.clock a, env.clock b⟩ : Reading) = q at h2
    generalize ht' : moved p.raw.toNat (unit p.type) q t = t' at h2
    obtain ⟨w4, w5, e4, e5, t4, t5, h4, h5⟩ := h2.setBoth hr hc t'.running t'.running
    refine ⟨q, w5, t', ?_, by rw [if_neg hs, ← ht'], by rw [← hq]; exact reading env (Nat.le_refl _) l1 l2 (by omega), h5⟩
    cases l with
    | false => simp [Ladder.fnTP, hl, hg, e1, e2, h2.getTr hi, h4.getTr hi, e4, e5]
    | true =>
      by_cases hz : t.acc = 0
      · cases htr : t.running with
        | false => simp [htr, hz] at hs
        | true => simp [Ladder.fnTP, hl, hg, hprev, hz, htr, h0.getTr hi, e1, e2, h2.getTr hi, h4.getTr hi, e4, e5]
      · simp [Ladder.fnTP, hl, hg, hprev, hacc, hz, e1, e2, h2.getTr hi, h4.getTr hi, e4, e5]

/-- The reset of a counter. -/
theorem reset (h : Lit env T us B n rows cols L z m f w) (hr : r + 1 < rows) (hc : c < cols) (hz : c = 0 → z.state = .running) :
    ctReset r c w = .ok (left f (r + 1) c, w) := by
  unfold ctReset
  split
  · rename_i e
    rw [bind_getCtx, show w.ctx.state = .running from (congrArg Ctx.state h.limit.2).trans (hz e)]
    simp [left, e]
  · exact h.getLeft hr hc

theorem ctDoReset {v : Value} {t : Tally} (hi : v.raw.toNat < 2^31) (h : Lit env T us B n rows cols L z (noted m v.raw.toNat t) f w)
    (hr : r + 1 < rows) (hc : c < cols) (hd : f r c = false) (hd' : f (r + 1) c = false) (y : W32) :
    ∃ w', Ladder.ctDoReset r c v.i32 y w = .ok ((), w') ∧ Lit env T us B n rows cols L z (noted m v.raw.toNat ⟨y.toNat, false, false⟩) f w' := by
  obtain ⟨w1, e1, h1⟩ := h.setC hi y
  obtain ⟨w2, e2, h2⟩ := h1.setCd hi false
  obtain ⟨w3, e3, h3⟩ := h2.setCr hi false
  obtain ⟨w4, e4, h4⟩ := h3.setState (r := r) (by omega) hc false
  obtain ⟨w5, e5, h5⟩ := h4.setState hr hc false
  rw [light_self hd] at h4
  rw [light_self hd, light_self hd'] at h5
  exact ⟨w5, by simp [Ladder.ctDoReset, e1, e2, e3, e4, e5], h5⟩

theorem ctCount {v : Value} {t : Tally} {g : W32 → W32} {code : Ins} (hi : v.raw.toNat < 2^31)
    (h : Lit env T us B n rows cols L z (noted m v.raw.toNat t) f w) (hr : r + 1 < rows) (hc : c < cols) (hd : f (r + 1) c = false)
    (hg : (g (BitVec.ofNat 32 t.count)).toNat = (if code = .CTD then t.count + 2^32 - 1 else t.count + 1) % 2^32) :
    ∃ w', Ladder.ctCount r c v.i32 g w = .ok ((), w') ∧
      Lit env T us B n rows cols L z (noted m v.raw.toNat ⟨counted code (left f r c) t, left f r c && (t.counted || counts (left f r c) t), t.done⟩)
        (light f (r + 1) c (counts (left f r c) t)) w' := by
  have hl := h.getLeft (r := r) (by omega) hc
  have hl2 : ∀ {w' : World} {m' : Image} {b : Bool}, Lit env T us B n rows cols L z m' (light f (r + 1) c b) w' →
      Ladder.getLeft r c w' = .ok (left f r c, w') := fun h' => by rw [h'.getLeft (by omega) hc, left_below]
  generalize left f r c = l at hl hl2 ⊢
  cases l with
  | false =>
    obtain ⟨w1, e1, h1⟩ := h.setCr hi false
    obtain ⟨w2, e2, h2⟩ := h1.setState hr hc false
    exact ⟨w2, by simp [Ladder.ctCount, hl, e1, e2], by simpa [counted, counts] using h2⟩
  | true =>
    by_cases hs : counts true t = true
    · simp only [counted, if_pos hs]
      rw [← hg]
      simp only [counts, Bool.true_and, Bool.and_eq_true, Bool.not_eq_true'] at hs
      obtain ⟨w1, e1, h1⟩ := h.setCr hi true
      obtain ⟨w2, e2, h2⟩ := h1.setState hr hc true
      obtain ⟨w3, e3, h3⟩ := h2.setC hi (g (BitVec.ofNat 32 t.count))
      refine ⟨w3, ?_, by simpa [counts, hs.1, hs.2] using h3⟩
      have gc := h2.getC hi
      simp only at gc
      simp [Ladder.ctCount, hl, h.getCr hi, h.getCd hi, hs.1, hs.2, e1, e2, gc, e3, hl2 h3]
    · have hs' : counts true t = false := by simpa using hs
      refine ⟨w, ?_, ?_⟩
      · simp only [counts, Bool.true_and, Bool.and_eq_false_iff, Bool.not_eq_false'] at hs'
        cases hcr : t.counted with
        | true => simp [Ladder.ctCount, hl, h.getCr hi, hcr]
        | false =>
          have hcd : t.done = true := by simpa [hcr] using hs'
          simp [Ladder.ctCount, hl, h.getCr hi, h.getCd hi, hcr, hcd]
      · simp only [counted, hs', Bool.false_eq_true, if_false, Bool.or_false, Bool.true_and, light_self hd]
        exact h

theorem ctDone {v : Value} {t : Tally} {code : Ins} {limit : Nat} {l : Bool} (hi : v.raw.toNat < 2^31)
    (h : Lit env T us B n rows cols L z (noted m v.raw.toNat ⟨counted code l t, l && (t.counted || counts l t), t.done⟩) (light f (r + 1) c (counts l t)) w)
    (hr : r + 1 < rows) (hc : c < cols) (hd : f r c = false) :
    ∃ w', (if reached code limit (counted code l t) = true then ∃ w1, Ladder.setB .Cd v.i32 true w = .ok ((), w1) ∧
      Ladder.setState r c true w1 = .ok ((), w') else w' = w) ∧
      Lit env T us B n rows cols L z (noted m v.raw.toNat (advanced code l limit t))
        (lights f r c (reached code limit (counted code l t)) (counts l t)) w' := by
  cases hq : reached code limit (counted code l t) with
  | false =>
    refine ⟨w, by simp, ?_⟩
    rw [show lights f r c false (counts l t) = light f (r + 1) c (counts l t) by unfold lights; rw [light_self hd]]
    simpa [advanced, hq] using h
  | true =>
    obtain ⟨w3, e3, h3⟩ := h.setCd hi true
    obtain ⟨w4, e4, h4⟩ := h3.setState (r := r) (by omega) hc true
    exact ⟨w4, by simp [e3, e4], by simpa [advanced, hq, lights_eq] using h4⟩

theorem fnCTU (h : Lit env T us B n rows cols L z m f w) (hr : r + 1 < rows) (hc : c < cols) (hx : cell? B n r c = some x)
    (hw : CounterWell B n r c) (hz : c = 0 → z.state = .running) (hd : f r c = false) (hd' : f (r + 1) c = false) :
    ∃ w' t, Ladder.fnCTU r c w = .ok (.ok, w') ∧
      t = fresh .CTU (left f (r + 1) c) (arg x 1).raw.toNat (tally m (arg x 0).raw.toNat) ∧
      Lit env T us B n rows cols L z (noted m (arg x 0).raw.toNat (advanced .CTU (left f r c) (arg x 1).raw.toNat t))
        (lights f r c (reached .CTU (arg x 1).raw.toNat (counted .CTU (left f r c) t)) (counts (left f r c) t)) w' := by
  obtain ⟨⟨v, ho, hi, ha, hr', hcd⟩, ⟨p, hp⟩, hb, hb'⟩ := hw
  rw [arg_of hx ho, arg_of hx hp]
  have h0 := h
  rw [← h.noted_self ha hr' hcd] at h0
  generalize tally m v.raw.toNat = t0 at h0 ⊢
  have hg : ∀ {w' : World} {m' : Image} {f' : Nat → Nat → Bool} {i : Nat} {v : Value}, Lit env T us B n rows cols L z m' f' w' → operand? B n r c i = some v →
      getDataExec r c i w' = .ok (v, w') := fun h' ho => getDataExec_ok h'.sound.exec (by rw [h'.sound.alike.operand]; exact ho)
  have hrst := h.reset hr hc hz
  have key : ∃ w1, (if left f (r + 1) c = true then Ladder.ctDoReset r c v.i32 0#32 w = .ok ((), w1) else w1 = w) ∧
      Lit env T us B n rows cols L z (noted m v.raw.toNat (fresh .CTU (left f (r + 1) c) p.raw.toNat t0)) f w1 := by
    cases left f (r + 1) c with
    | false => exact ⟨w, rfl, h0⟩
    | true => exact h0.ctDoReset hi hr hc hd hd' 0#32
  obtain ⟨w1, e1, h1⟩ := key
  generalize fresh .CTU (left f (r + 1) c) p.raw.toNat t0 = t at h1 ⊢
  obtain ⟨w2, e2, h2⟩ := h1.ctCount (g := fun x => x + 1#32) (code := .CTU) hi hr hc hd' (by simp)
  have hgc := h2.getC hi
  have hlt := h2.count_lt
  simp only at hgc hlt
  obtain ⟨w', e3, h3⟩ := h2.ctDone (limit := p.raw.toNat) hi hr hc hd
  refine ⟨w', t, ?_, rfl, h3⟩
  have hpe := hg h2 hp
  have hrch : reached .CTU p.raw.toNat (counted .CTU (left f r c) t) = decide (p.raw.toNat ≤ counted .CTU (left f r c) t) := by simp [reached]
  rw [hrch] at e3
  generalize counted .CTU (left f r c) t = k at hgc hlt e3
  have hk : (BitVec.ofNat 32 k).toNat = k := Nat.mod_eq_of_lt hlt
  have hmain : ∀ u, u = w1 → (do
      Ladder.ctCount r c v.i32 (fun x => x + 1#32)
      let y ← Ladder.getC v.i32
      let p ← getDataExec r c 1
      if p.raw.toNat ≤ y.toNat then
        Ladder.setB .Cd v.i32 true
        Ladder.setState r c true
      pure Err.ok : Op Err) u = .ok (.ok, w') := by
    rintro u rfl
    rw [bind_ok e2, bind_ok hgc, bind_ok hpe]
    by_cases hle : p.raw.toNat ≤ k
    · simp only [hle, decide_true, if_true] at e3
      obtain ⟨w3, e3, e4⟩ := e3
      simp [hk, hle, e3, e4]
    · simp only [hle, decide_false, Bool.false_eq_true, if_false] at e3
      simp [hk, hle, e3]
  unfold Ladder.fnCTU
  rw [bind_ok hrst, bind_ok (hg h ho)]
  cases hq : left f (r + 1) c with
  | false =>
    simp only [hq, Bool.false_eq_true, if_false] at e1
    exact hmain w e1.symm
  | true =>
    simp only [hq, if_true] at e1
    exact (bind_ok e1).trans (hmain w1 rfl)

theorem fnCTD (h : Lit env T us B n rows cols L z m f w) (hr : r + 1 < rows) (hc : c < cols) (hx : cell? B n r c = some x)
    (hw : CounterWell B n r c) (hz : c = 0 → z.state = .running) (hd : f r c = false) (hd' : f (r + 1) c = false) :
    ∃ w' t, Ladder.fnCTD r c w = .ok (.ok, w') ∧
      t = fresh .CTD (left f (r + 1) c) (arg x 1).raw.toNat (tally m (arg x 0).raw.toNat) ∧
      Lit env T us B n rows cols L z (noted m (arg x 0).raw.toNat (advanced .CTD (left f r c) (arg x 1).raw.toNat t))
        (lights f r c (reached .CTD (arg x 1).raw.toNat (counted .CTD (left f r c) t)) (counts (left f r c) t)) w' := by
  obtain ⟨⟨v, ho, hi, ha, hr', hcd⟩, ⟨p, hp⟩, hb, hb'⟩ := hw
  rw [arg_of hx ho, arg_of hx hp]
  have h0 := h
  rw [← h.noted_self ha hr' hcd] at h0
  generalize tally m v.raw.toNat = t0 at h0 ⊢
  have hg : ∀ {w' : World} {m' : Image} {f' : Nat → Nat → Bool} {i : Nat} {v : Value}, Lit env T us B n rows cols L z m' f' w' → operand? B n r c i = some v →
      getDataExec r c i w' = .ok (v, w') := fun h' ho => getDataExec_ok h'.sound.exec (by rw [h'.sound.alike.operand]; exact ho)
  have hrst := h.reset hr hc hz
  have key : ∃ w1, (if left f (r + 1) c = true then Ladder.ctDoReset r c v.i32 p.raw w = .ok ((), w1) else w1 = w) ∧
      Lit env T us B n rows cols L z (noted m v.raw.toNat (fresh .CTD (left f (r + 1) c) p.raw.toNat t0)) f w1 := by
    cases left f (r + 1) c with
    | false => exact ⟨w, rfl, h0⟩
    | true => exact h0.ctDoReset hi hr hc hd hd' p.raw
  obtain ⟨w1, e1, h1⟩ := key
  generalize fresh .CTD (left f (r + 1) c) p.raw.toNat t0 = t at h1 ⊢
  have hlt1 := h1.count_lt
  obtain ⟨w2, e2, h2⟩ := h1.ctCount (g := fun x => x - 1#32) (code := .CTD) hi hr hc hd' (by
    simp only [BitVec.toNat_sub, BitVec.toNat_ofNat, if_true]
    rw [Nat.mod_eq_of_lt hlt1]
    congr 1
    omega)
  have hgc := h2.getC hi
  have hlt := h2.count_lt
  simp only at hgc hlt
  obtain ⟨w', e3, h3⟩ := h2.ctDone (limit := p.raw.toNat) hi hr hc hd
  refine ⟨w', t, ?_, rfl, h3⟩
  have hrch : reached .CTD p.raw.toNat (counted .CTD (left f r c) t) = decide (counted .CTD (left f r c) t = 0) := by simp [reached]
  rw [hrch] at e3
  generalize counted .CTD (left f r c) t = k at hgc hlt e3
  have hk : (BitVec.ofNat 32 k = 0#32) ↔ k = 0 := by
    constructor
    · intro e
      have := congrArg BitVec.toNat e
      simp only [BitVec.toNat_ofNat] at this
      omega
    · intro e; rw [e]
  have hmain : ∀ u, u = w1 → (do
      Ladder.ctCount r c v.i32 (fun x => x - 1#32)
      let y ← Ladder.getC v.i32
      if y = 0 then
        Ladder.setB .Cd v.i32 true
        Ladder.setState r c true
      pure Err.ok : Op Err) u = .ok (.ok, w') := by
    rintro u rfl
    rw [bind_ok e2, bind_ok hgc]
    by_cases hle : k = 0
    · simp only [hle, decide_true, if_true] at e3
      obtain ⟨w3, e3, e4⟩ := e3
      simp [hle, e3, e4]
    · simp only [hle, decide_false, Bool.false_eq_true, if_false] at e3
      simp [hk, hle, e3]
  unfold Ladder.fnCTD
  rw [bind_ok hrst, bind_ok (hg h ho)]
  cases hq : left f (r + 1) c with
  | false =>
    simp only [hq, Bool.false_eq_true, if_false] at e1
    exact hmain w e1.symm
  | true =>
    simp only [hq, if_true] at e1
    rw [if_pos rfl]
    exact (bind_ok (hg h hp)).trans ((bind_ok e1).trans (hmain w1 rfl))

end tall

/-- One instruction of a single row, when its power state was off. -/
theorem fits_narrow (x : Int) : fitsI32 x = narrow x := by
  unfold fitsI32 narrow
  rw [← Bool.decide_and]
  exact decide_eq_decide.2 (by omega)

theorem conj_bit (a b : W32) : toInteger a &&& toInteger b = bit (decide (a = 1) && decide (b = 1)) := by
  have e : ∀ v : W32, toInteger v = if v = 1 then 1 else 0 := fun v => by
    unfold toInteger
    by_cases h0 : v = 0
    · rw [if_pos h0, h0]; rfl
    · rw [if_neg h0]
      by_cases h1 : v = 1
      · rw [if_pos h1, if_pos h1, h1]
      · rw [if_neg h1, if_neg h1]
  rw [e, e]
  unfold bit
  by_cases h0 : a = 1
  · by_cases h1 : b = 1
    · rw [if_pos h0, if_pos h1, decide_eq_true h0, decide_eq_true h1]; rfl
    · rw [if_pos h0, if_neg h1, decide_eq_true h0, decide_eq_false h1]; rfl
  · rw [if_neg h0, decide_eq_false h0]
    split <;> rfl

theorem execSimple (h : Lit env T us B n rows cols L z m f w) {r c : Nat} {x : Cell} (hr : r < rows) (hc : c < cols) (hx : cell? B n r c = some x)
    (hw : FormedCell B n r c x.code) (hl : logical x.code = true) (hm : x.code ≠ .MULTI)
    (hns : tall x.code = false) (hd : f r c = false) (hdef : defined m (left f r c) x = true) :
    ∃ w', Ladder.execIns env x.code r c w = .ok (.ok, w') ∧
      Lit env T us B n rows cols L z (simple m (left f r c) x).1 (light f r c (simple m (left f r c) x).2) w' := by
  have hstay : light f r c false = f := by
    funext r' c'
    unfold light
    split
    · rename_i e; rw [e.1, e.2, hd]
    · rfl
  generalize hp : left f r c = p at hdef
  have hgl : ∀ {w : World} {m : Image} {f' : Nat → Nat → Bool}, Lit env T us B n rows cols L z m f' w → left f' r c = p →
      Ladder.getLeft r c w = .ok (p, w) := fun h' e => e ▸ h'.getLeft hr hc
  cases hcode : x.code <;> rw [hcode] at hw hl hm hns <;> simp only [FormedCell, WellCell] at hw <;> (try (exact absurd hl (by decide))) <;>
    (try (exact absurd hns (by decide))) <;> simp only [simple, hcode, Ladder.execIns] <;> simp only [defined, hcode] at hdef
  case NOP => exact ⟨w, rfl, by rw [hstay]; exact h⟩
  case CONN =>
    obtain ⟨w', h1, h2⟩ := h.setState hr hc p
    exact ⟨w', by simp [fnCONN, hgl h hp, h1], h2⟩
  case NEG =>
    obtain ⟨w', h1, h2⟩ := h.setState hr hc (!p)
    exact ⟨w', by simp [fnNEG, hgl h hp, h1], h2⟩
  case NO =>
    obtain ⟨w', h1, h2⟩ := h.setState hr hc (p && decide (now m (arg x 0) ≠ 0))
    refine ⟨w', ?_, h2⟩
    by_cases h0 : now m (arg x 0) = 0#32 <;> simp [fnNO, h.getData hx hw, hgl h hp, h0] at h1 ⊢ <;> simp [h1]
  case NC =>
    obtain ⟨w', h1, h2⟩ := h.setState hr hc (p && !decide (now m (arg x 0) ≠ 0))
    refine ⟨w', ?_, h2⟩
    by_cases h0 : now m (arg x 0) = 0#32 <;> simp [fnNC, h.getData hx hw, hgl h hp, h0] at h1 ⊢ <;> simp [h1]
  case RE =>
    obtain ⟨w', h1, h2⟩ := h.setState hr hc (p && decide (now m (arg x 0) ≠ 0) && !decide (before m (arg x 0) ≠ 0))
    refine ⟨w', ?_, h2⟩
    by_cases h0 : now m (arg x 0) = 0#32 <;> by_cases h3 : before m (arg x 0) = 0#32 <;>
      simp [fnRE, h.getData hx hw.1, h.getPrev hx hw.2, hgl h hp, h0, h3] at h1 ⊢ <;> simp [h1]
  case FE =>
    obtain ⟨w', h1, h2⟩ := h.setState hr hc (p && !decide (now m (arg x 0) ≠ 0) && decide (before m (arg x 0) ≠ 0))
    refine ⟨w', ?_, h2⟩
    by_cases h0 : now m (arg x 0) = 0#32 <;> by_cases h3 : before m (arg x 0) = 0#32 <;>
      simp [fnFE, h.getData hx hw.1, h.getPrev hx hw.2, hgl h hp, h0, h3] at h1 ⊢ <;> simp [h1]
  case COIL =>
    obtain ⟨v, -, ho, -⟩ := hw
    obtain ⟨w1, h1, h2⟩ := h.setState hr hc p
    obtain ⟨e, w2, h3, h4⟩ := h2.setData hx ho (y := bit p) fun _ => bit_le p
    refine ⟨w2, ?_, h4⟩
    have h5 : Ladder.getState r c w1 = .ok (p, w1) := by rw [h2.getState hr hc]; simp [light]
    simp only [bit] at h3
    simp only [fnCOIL, bind_apply, hgl h hp, h1, h5, h3, pure_apply]
  case COILL =>
    obtain ⟨⟨v, -, ho, -⟩, hrec⟩ := hw
    obtain ⟨w1, h1, h2⟩ := h.setState hr hc (decide (before m (arg x 0) ≠ 0) || p)
    obtain ⟨e, w2, h3, h4⟩ := h2.setData hx ho (y := bit (decide (before m (arg x 0) ≠ 0) || p)) fun _ => bit_le _
    refine ⟨w2, ?_, h4⟩
    simp only [bit] at h3
    simp only [fnCOILL, bind_apply, hgl h hp, h.getPrev hx hrec, h1, h3, pure_apply]
  case COILU =>
    obtain ⟨⟨v, -, ho, -⟩, hrec⟩ := hw
    obtain ⟨w1, h1, h2⟩ := h.setState hr hc (decide (before m (arg x 0) ≠ 0) && !p)
    obtain ⟨e, w2, h3, h4⟩ := h2.setData hx ho (y := bit (decide (before m (arg x 0) ≠ 0) && !p)) fun _ => bit_le _
    refine ⟨w2, ?_, h4⟩
    simp only [bit] at h3
    simp only [fnCOILU, bind_apply, hgl h hp, h.getPrev hx hrec, h1, h3, pure_apply]
  case DIV =>
    obtain ⟨hr0, hr1, v, ho, hk⟩ := hw
    obtain ⟨w1, h1, h2⟩ := h.setState hr hc p
    cases p with
    | false => exact ⟨w1, by simp [fnDIV, hgl h hp, h1, hgl h2 (left_light.trans hp)], h2⟩
    | true =>
      obtain ⟨e, w2, h3, h4⟩ := h2.setData hx ho (y := .ofInt 32 ((now m (arg x 0)).toInt.tdiv (now m (arg x 1)).toInt))
        fun e => absurd e (by rw [hk]; decide)
      refine ⟨w2, ?_, h4⟩
      by_cases hz : now m (arg x 1) = 0#32
      · simp [hz] at h3
        simp [fnDIV, hgl h hp, h1, hgl h2 (left_light.trans hp), h2.getData hx hr1, hz, h3]
      · have hz' : (now m (arg x 1)).toInt ≠ 0 := toInt_ne (b := (0 : W32)) hz
        have hq : cDiv (now m (arg x 0)) (now m (arg x 1)) = .ok (.ofInt 32 ((now m (arg x 0)).toInt.tdiv (now m (arg x 1)).toInt)) := by
          simp only [Bool.not_true, Bool.false_or] at hdef
          simp [cDiv, hz', signed32, fits_narrow, hdef]
        simp [fnDIV, hgl h hp, h1, hgl h2 (left_light.trans hp), h2.getData hx hr1, h2.getData hx hr0, hz, hq, h3]
  case NOT =>
    obtain ⟨hr0, v, ho, hk⟩ := hw
    obtain ⟨w1, h1, h2⟩ := h.setState hr hc p
    cases p with
    | false => exact ⟨w1, by simp [fnNOT, hgl h hp, h1, hgl h2 (left_light.trans hp)], h2⟩
    | true =>
      obtain ⟨e, w2, h3, h4⟩ := h2.setData hx ho (y := ~~~now m (arg x 0)) fun e => absurd e (by rw [hk]; decide)
      exact ⟨w2, by simp [fnNOT, hgl h hp, h1, hgl h2 (left_light.trans hp), h2.getData hx hr0, h3], h4⟩
  case MOD =>
    refine binop h hr hc hx hp hw.1 hw.2.1 hw.2.2 fun hp => ?_
    subst hp
    simp only [Bool.not_true, Bool.false_or, Bool.and_eq_true, decide_eq_true_eq] at hdef
    simp [cMod, hdef.1, fits_narrow, hdef.2]
  case ADD =>
    refine binop h hr hc hx hp hw.1 hw.2.1 hw.2.2 fun hp => ?_
    subst hp
    simp only [Bool.not_true, Bool.false_or] at hdef
    simp [signed32, fits_narrow, hdef]
  case MUL =>
    refine binop h hr hc hx hp hw.1 hw.2.1 hw.2.2 fun hp => ?_
    subst hp
    simp only [Bool.not_true, Bool.false_or] at hdef
    simp [signed32, fits_narrow, hdef]
  case AND => exact binop h hr hc hx hp hw.1 hw.2.1 hw.2.2 fun _ => congrArg Except.ok (conj_bit _ _)
  case OR => exact binop h hr hc hx hp hw.1 hw.2.1 hw.2.2 fun _ => rfl
  case XOR => exact binop h hr hc hx hp hw.1 hw.2.1 hw.2.2 fun _ => rfl
  case MULTI => exact absurd rfl hm
  case SHL =>
    exact shiftop h hr hc hx hp hw.1 hw.2.1 hw.2.2 (by unfold cShl; rw [if_pos (by rw [← shiftAmount_eq]; exact Sound.shiftAmount_lt _)])
  case SHR =>
    exact shiftop h hr hc hx hp hw.1 hw.2.1 hw.2.2 (by unfold cShr; rw [if_pos (by rw [← shiftAmount_eq]; exact Sound.shiftAmount_lt _)])
  case ROL =>
    refine shiftop h hr hc hx hp hw.1 hw.2.1 hw.2.2 ?_
    simp only [decide_eq_true_eq, ← shiftAmount_eq] at hdef ⊢
    have h1 := Sound.shiftAmount_lt (now m (arg x 1))
    simp [cShl, cShr, h1, show 32 - shiftAmount (now m (arg x 1)) < 32 by omega, turned, BitVec.rotateLeft_def, Nat.mod_eq_of_lt h1]
    rfl
  case ROR =>
    refine shiftop h hr hc hx hp hw.1 hw.2.1 hw.2.2 ?_
    simp only [decide_eq_true_eq, ← shiftAmount_eq] at hdef ⊢
    have h1 := Sound.shiftAmount_lt (now m (arg x 1))
    have h3 : 32 - shiftAmount (now m (arg x 1)) < 32 := by omega
    simp [cShl, cShr, h1, h3, turned, BitVec.rotateLeft_def, Nat.mod_eq_of_lt h3,
      show 32 - (32 - shiftAmount (now m (arg x 1))) = shiftAmount (now m (arg x 1)) by omega]
    exact congrArg Except.ok (BitVec.or_comm _ _)
  case MOVE => exact fnMOVE h hr hc hx hp hw
  all_goals exact cmpop h hr hc hx hp hw.1 hw.2 rfl

/-- Arithmetic without a result. -/
theorem execUndefined (h : Lit env T us B n rows cols L z m f w) {r c : Nat} {x : Cell} (hr : r < rows) (hc : c < cols) (hx : cell? B n r c = some x)
    (hw : FormedCell B n r c x.code) (hdef : defined m (left f r c) x = false) :
    ∃ e, Ladder.execIns env x.code r c w = .error e ∧ arithmetic e = true := by
  generalize hp : left f r c = p at hdef
  obtain ⟨w1, h1, h2⟩ := h.setState hr hc p
  have hg0 : Ladder.getLeft r c w = .ok (p, w) := hp ▸ h.getLeft hr hc
  have hg1 : Ladder.getLeft r c w1 = .ok (p, w1) := by rw [h2.getLeft hr hc, left_light, hp]
  have bin : ∀ {g : W32 → W32 → Except UB W32} {e : UB}, Readable B n r c 0 → Readable B n r c 1 → p = true →
      g (now m (arg x 0)) (now m (arg x 1)) = .error e → Ladder.binop env g r c w = .error e := by
    rintro g e h0 h3 rfl hg
    simp [Ladder.binop, hg0, h1, hg1, h2.getData hx h0, h2.getData hx h3, hg]
  have rot : ∀ {g : W32 → Nat → Except UB W32} {e : UB}, Readable B n r c 0 → Readable B n r c 1 →
      g (now m (arg x 0)) (places (now m (arg x 1))) = .error e → Ladder.shiftop env g r c w = .error e := by
    intro g e h0 h3 hg
    simp [Ladder.shiftop, h.getData hx h0, h.getData hx h3, shiftAmount_eq, hg]
  cases hcode : x.code <;> simp only [defined, hcode, Bool.true_eq_false] at hdef <;> rw [hcode] at hw <;> simp only [FormedCell] at hw <;>
    simp only [Ladder.execIns]
  case ADD =>
    simp only [Bool.or_eq_false_iff, Bool.not_eq_false'] at hdef
    exact ⟨_, bin hw.1 hw.2.1 hdef.1 (by simp [signed32, fits_narrow, hdef.2]; rfl), rfl⟩
  case MUL =>
    simp only [Bool.or_eq_false_iff, Bool.not_eq_false'] at hdef
    exact ⟨_, bin hw.1 hw.2.1 hdef.1 (by simp [signed32, fits_narrow, hdef.2]; rfl), rfl⟩
  case MOD =>
    simp only [Bool.or_eq_false_iff, Bool.not_eq_false'] at hdef
    by_cases hz : (now m (arg x 1)).toInt = 0
    · exact ⟨_, bin hw.1 hw.2.1 hdef.1 (by simp [cMod, hz]; rfl), rfl⟩
    · simp only [ne_eq, hz, not_false_eq_true, decide_true, Bool.true_and] at hdef
      exact ⟨_, bin hw.1 hw.2.1 hdef.1 (by simp [cMod, hz, fits_narrow, hdef.2]; rfl), rfl⟩
  case DIV =>
    simp only [Bool.or_eq_false_iff, Bool.not_eq_false'] at hdef
    obtain ⟨rfl, hdef⟩ := hdef
    have hz : (now m (arg x 1)).toInt ≠ 0 := by
      intro hz
      rw [hz, Int.tdiv_zero] at hdef
      cases hdef
    have hz' : now m (arg x 1) ≠ 0#32 := by
      intro e
      rw [e] at hz
      exact hz rfl
    refine ⟨.signedOverflow, ?_, rfl⟩
    simp [fnDIV, hg0, h1, hg1, h2.getData hx hw.2.1, h2.getData hx hw.1, cDiv, hz, hz', signed32, fits_narrow, hdef]
  case ROL =>
    have hdef : places (now m (arg x 1)) = 0 := by simpa using hdef
    exact ⟨_, rot hw.1 hw.2.1 (by simp [hdef, cShl, cShr]; rfl), rfl⟩
  case ROR =>
    have hdef : places (now m (arg x 1)) = 0 := by simpa using hdef
    exact ⟨_, rot hw.1 hw.2.1 (by simp [hdef, cShl, cShr]; rfl), rfl⟩

theorem act_simple {s : State} {p q d : Bool} {x : Cell} (hm : x.code ≠ .MULTI) (hns : tall x.code = false) :
    act s p q d x = (⟨(simple s.reg p x).1, s.time, s.sure && defined s.reg p x⟩, (simple s.reg p x).2, false) := by
  cases hcode : x.code <;> rw [hcode] at hm hns <;> simp_all [act, tall]

/-- One instruction, when its power state and the one below were off. -/
theorem execIns (h : Lit env T us B n rows cols L z m f w) {r c : Nat} {x : Cell} {q : Bool} (hr : r < rows) (hc : c < cols)
    (hx : cell? B n r c = some x) (hw : FormedCell B n r c x.code) (hl : logical x.code = true) (hm : x.code ≠ .MULTI)
    (hd : f r c = false) (hd' : f (r + 1) c = false) (hb : tall x.code = true → r + 1 < rows ∧ q = left f (r + 1) c)
    (hz : c = 0 → z.state = .running ∨ x.code ≠ .CTU ∧ x.code ≠ .CTD) :
    Yields (Ladder.execIns env x.code r c w) (Bad env T us (fun s => (act s (left f r c) q false x).1) m) fun e w' => e = .ok ∧
      ∃ vs m' out drop, Runs (fun s => act s (left f r c) q false x) m vs m' (out, drop) ∧
      (drop = true → tall x.code = true) ∧
      Lit env T (us ++ vs) B n rows cols L z m' (lights f r c out drop) w' := by
  by_cases hns : tall x.code = false
  · cases hdef : defined m (left f r c) x with
    | false =>
      obtain ⟨e, e1, he⟩ := h.execUndefined hr hc hx hw hdef
      refine .of_error e1 he ⟨[], _, by rw [List.append_nil]; exact h.told, fun rest => ?_⟩
      simp only [act_simple hm hns, hdef, Bool.and_false]
    | true =>
      obtain ⟨w', e1, h1⟩ := h.execSimple hr hc hx hw hl hm hns hd hdef
      refine .of_ok e1 ⟨rfl, [], _, _, false, ?_, by simp, by rw [lights_stay hd', List.append_nil]; exact h1⟩
      intro rest
      simp only [act_simple hm hns, hdef, Bool.and_true, Logic.prior]
  · simp only [Bool.not_eq_false] at hns
    suffices ∃ vs m' out drop w', Ladder.execIns env x.code r c w = .ok (.ok, w') ∧
        Runs (fun s => act s (left f r c) q false x) m vs m' (out, drop) ∧ (drop = true → tall x.code = true) ∧
        Lit env T (us ++ vs) B n rows cols L z m' (lights f r c out drop) w' by
      obtain ⟨vs, m', out, drop, w', e1, h1⟩ := this
      exact .of_ok e1 ⟨rfl, vs, m', out, drop, h1⟩
    obtain ⟨hr', hq⟩ := hb hns
    have tim : ∀ code, x.code = code → (code = .TON ∨ code = .TOF ∨ code = .TP) → (∃ q w' t, Ladder.execIns env x.code r c w = .ok (.ok, w') ∧
        t = timed code (left f r c) (arg x 1).raw.toNat (unit (arg x 1).type) q (Logic.watch m (arg x 0).raw.toNat) ∧ Told env w.tick w'.tick [q] ∧
        Lit env T us B n rows cols L z (wound m (arg x 0).raw.toNat t) (lights f r c (passes code (left f r c) t) t.running) w') →
        ∃ vs m' out drop w', Ladder.execIns env x.code r c w = .ok (.ok, w') ∧
          Runs (fun s => act s (left f r c) q false x) m vs m' (out, drop) ∧ (drop = true → tall x.code = true) ∧
          Lit env T (us ++ vs) B n rows cols L z m' (lights f r c out drop) w' := by
      rintro code hcode hco ⟨q', w', t, e1, ht, hto, h1⟩
      refine ⟨[q'], _, _, _, w', e1, ?_, fun _ => hns, { h1 with told := h.told.append hto }⟩
      intro rest
      rw [ht]
      rcases hco with e | e | e <;> (subst e; simp only [act, hcode, prior])
    cases hcode : x.code <;> rw [hcode] at hw hns <;> simp only [FormedCell, WellCell] at hw <;> (try (exact absurd hns (by decide)))
    case TON => rw [← hcode]; exact tim .TON hcode (.inl rfl) (by rw [hcode]; exact h.fnTON hr' hc hx hw)
    case TOF => rw [← hcode]; exact tim .TOF hcode (.inr (.inl rfl)) (by rw [hcode]; exact h.fnTOF hr' hc hx hw)
    case TP => rw [← hcode]; exact tim .TP hcode (.inr (.inr rfl)) (by rw [hcode]; exact h.fnTP hr' hc hx hw)
    case CTU =>
      obtain ⟨w', t, e1, ht, h1⟩ := h.fnCTU hr' hc hx hw (fun h0 => (hz h0).resolve_right fun hn => hn.1 hcode) hd hd'
      refine ⟨[], _, _, _, w', e1, ?_, fun _ => rfl, by rw [List.append_nil]; exact h1⟩
      intro rest
      rw [ht, ← hq]
      simp only [act, hcode, prior]
    case CTD =>
      obtain ⟨w', t, e1, ht, h1⟩ := h.fnCTD hr' hc hx hw (fun h0 => (hz h0).resolve_right fun hn => hn.2 hcode) hd hd'
      refine ⟨[], _, _, _, w', e1, ?_, fun _ => rfl, by rw [List.append_nil]; exact h1⟩
      intro rest
      rw [ht, ← hq]
      simp only [act, hcode, prior]

end Lit

end Ladder
