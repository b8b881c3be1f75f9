import Verif.Lemmas.Step
import Verif.Spec.Demo

/-
C24: TMOVE, the block move between data tables (networks that are not enabled and hold data words).
-/

namespace Ladder.Props

open Spec Op

/-! ### Specification -/

/-- Word `pos` of table `net`: operand 0 of the cell at that position in row-major order. -/
def word? (ctx : Ctx) (net pos : Nat) : Option Value :=
  (at? ctx.network net).bind fun nt =>
    if pos < nt.rows * nt.cols then operand? ctx net (pos / nt.cols) (pos % nt.cols) 0 else none

/-- Kinds of table words. -/
def tableKind (k : Reg) : Prop := k = .D ∨ k = .IW ∨ k = .QW

/-- Content of a table word. -/
def rawAt (ctx : Ctx) (net pos : Nat) : W32 := ((word? ctx net pos).map (·.raw)).getD 0

/-- A cell whose data word is replaced. -/
def setRaw (x : W32) (cell : Cell) : Cell :=
  { cell with data := cell.data.map fun d => d.modify 0 fun v => { v with raw := x } }

/-- A network without its cells. -/
def head (n : Network) : Network := { n with cells := none }

/-- `b` is `a` with the words `dpos ..< dpos + qty` of table `dnet` (of `cols` columns) replaced by what the words
`spos ..< spos + qty` of table `snet` hold in `a`; nothing else differs. -/
structure Copied (a b : Ctx) (cols dnet dpos snet spos qty : Nat) : Prop where
  rest : { b with network := none } = { a with network := none }
  heads : b.network.map (·.map head) = a.network.map (·.map head)
  cells : ∀ m r c, cell? b m r c =
    if m = dnet ∧ c < cols ∧ dpos ≤ r * cols + c ∧ r * cols + c < dpos + qty then
      (cell? a m r c).map (setRaw (rawAt a snet (spos + (r * cols + c - dpos))))
    else cell? a m r c

/-! ### Running the model -/

theorem entry_word {ctx : Ctx} {net pos : W32} {nt : Network} {v : Value} (hq : net.toNat < ctx.qty.networks)
    (hn : at? ctx.network net.toNat = some nt) (hsz : nt.rows * nt.cols < 2^32)
    (hv : word? ctx net.toNat pos.toNat = some v) (hk : tableKind v.type) :
    tableEntry ctx net pos = .ok (.ok (pos.toNat / nt.cols, pos.toNat % nt.cols, v)) := by
  have hlt : pos.toNat < nt.rows * nt.cols := by
    by_cases h : pos.toNat < nt.rows * nt.cols
    · exact h
    · simp [word?, hn, h] at hv
  simp only [word?, hn, Option.bind_some, hlt, if_true] at hv
  simp only [operand?, Option.bind_eq_some_iff] at hv
  obtain ⟨cell, hc, hd⟩ := hv
  have hdq : 0 < cell.dataQty := by
    by_cases h : 0 < cell.dataQty
    · exact h
    · simp [h] at hd
  rw [if_pos hdq] at hd
  have hcols : 0 < nt.cols := by
    rcases Nat.eq_zero_or_pos nt.cols with h | h
    · simp [h] at hlt
    · exact h
  have h1 : pos.toNat / nt.cols < nt.rows := (Nat.div_lt_iff_lt_mul hcols).2 hlt
  have h2 : pos.toNat % nt.cols < nt.cols := Nat.mod_lt _ hcols
  have hcell : nt.cell (pos.toNat / nt.cols) (pos.toNat % nt.cols) = .ok cell := by
    simp only [cell?, hn, Option.bind_some, Option.bind_eq_some_iff] at hc
    obtain ⟨row, hr, hcc⟩ := hc
    unfold Network.cell
    cases hcells : nt.cells with
    | none => simp [hcells, at?] at hr
    | some rows => simp only [hcells, at?, Option.bind_some] at hr; simp [hr, hcc]
  have hkind : isTableReg v.type = true := by rcases hk with h | h | h <;> rw [h] <;> rfl
  unfold tableEntry
  rw [if_neg (by omega)]
  simp only [aget_eq_ok.2 hn, Network.size32, Nat.mod_eq_of_lt hsz, hcell, aget_eq_ok.2 hd, hkind]
  rw [if_neg (by omega), if_neg (by omega), if_neg (by omega)]
  rfl

theorem toNat_add_one {pos : W32} (h : pos.toNat + 1 < 2^32) : (pos + 1).toNat = pos.toNat + 1 := by
  rw [BitVec.toNat_add]
  exact Nat.mod_eq_of_lt h

theorem read_words {ctx : Ctx} {net : W32} {nt : Network} (hq : net.toNat < ctx.qty.networks)
    (hn : at? ctx.network net.toNat = some nt) (hsz : nt.rows * nt.cols < 2^32) :
    ∀ (k : Nat) (pos : W32), (∀ i < k, ∃ v, word? ctx net.toNat (pos.toNat + i) = some v ∧ tableKind v.type) →
      tableRead ctx net pos k = .ok (.ok ((List.range k).map fun i => rawAt ctx net.toNat (pos.toNat + i)))
  | 0, _, _ => by simp [tableRead]
  | 1, pos, h => by
    obtain ⟨v, hv, hk⟩ := h 0 (by omega)
    simp only [Nat.add_zero] at hv
    simp [tableRead, entry_word hq hn hsz hv hk, rawAt, hv]
  | k + 2, pos, h => by
    obtain ⟨v, hv, hk⟩ := h 0 (by omega)
    obtain ⟨v1, hv1, -⟩ := h 1 (by omega)
    simp only [Nat.add_zero] at hv
    have hlt : pos.toNat + 1 < 2^32 := by
      by_cases hl : pos.toNat + 1 < nt.rows * nt.cols
      · omega
      · simp [word?, hn, hl] at hv1
    have hs := toNat_add_one hlt
    have ih := read_words hq hn hsz (k + 1) (pos + 1) (by
      intro i hi
      obtain ⟨v, hv⟩ := h (i + 1) (by omega)
      exact ⟨v, by rw [hs, Nat.add_assoc, Nat.add_comm 1]; exact hv⟩)
    unfold tableRead
    simp only [entry_word hq hn hsz hv hk, ih]
    rw [List.range_succ_eq_map (n := k + 1), List.map_cons, List.map_map]
    congr 3
    · simp [rawAt, hv]
    · apply List.map_congr_left
      intro i _
      simp only [Function.comp, hs]
      congr 1; omega

/-- The network headers and all that is not program are untouched by `modCell`. -/
theorem head_modCell (ctx : Ctx) (n r c : Nat) (f : Cell → Cell) :
    (ctx.modCell n r c f).network.map (·.map head) = ctx.network.map (·.map head) := by
  simp only [Ctx.modCell, Option.map_map]
  congr 1
  funext nets
  simp only [Function.comp]
  exact map_modify_eq head (fun net : Network =>
    { net with cells := net.cells.map fun rows => rows.modify r fun row => row.modify c f }) (fun _ => rfl) nets n

theorem rest_modCell (ctx : Ctx) (n r c : Nat) (f : Cell → Cell) :
    { ctx.modCell n r c f with network := none } = { ctx with network := none } := rfl

theorem network_head {a b : Ctx} (h : b.network.map (·.map head) = a.network.map (·.map head)) {n : Nat} {nt : Network}
    (hn : at? a.network n = some nt) : ∃ nt', at? b.network n = some nt' ∧ nt'.rows = nt.rows ∧ nt'.cols = nt.cols := by
  have e : (at? b.network n).map head = (at? a.network n).map head := by rw [← at?_map, ← at?_map, h]
  rw [hn] at e
  simp only [Option.map_some, Option.map_eq_some_iff] at e
  obtain ⟨nt', h1, h2⟩ := e
  exact ⟨nt', h1, (congrArg Network.rows h2 :), (congrArg Network.cols h2 :)⟩

theorem set_eq_setRaw {cell : Cell} {v : Value} {x : W32} (h : at? cell.data 0 = some v) :
    { cell with data := aset cell.data 0 { v with raw := x } } = setRaw x cell := by
  unfold setRaw
  congr 1
  exact aset_modify (f := fun v => { v with raw := x }) h

theorem fits_setRaw {cell : Cell} {x : W32} (h : ∀ d, cell.data = some d → d.length = cell.dataQty) :
    ∀ d, (setRaw x cell).data = some d → d.length = (setRaw x cell).dataQty := by
  intro d hd
  simp only [setRaw, Option.map_eq_some_iff] at hd ⊢
  obtain ⟨d', h1, rfl⟩ := hd
  simpa using h d' h1

theorem modCell_congr {ctx : Ctx} {n r c : Nat} {cell : Cell} {f g : Cell → Cell} (h : cell? ctx n r c = some cell)
    (hfg : f cell = g cell) : ctx.modCell n r c f = ctx.modCell n r c g := by
  simp only [cell?, Option.bind_eq_some_iff] at h
  obtain ⟨net, hn, row, hr, hc⟩ := h
  have key : ∀ {α : Type} (l : List α) (i : Nat) (x : α) (f g : α → α), l[i]? = some x → f x = g x →
      l.modify i f = l.modify i g := by
    intro α l i x f g hx hfg
    apply List.ext_getElem?
    intro j
    rw [List.getElem?_modify, List.getElem?_modify]
    by_cases hj : i = j
    · subst hj; simp [hx, hfg]
    · simp [hj]
  unfold Ctx.modCell
  cases hnw : ctx.network with
  | none => rfl
  | some nets =>
    simp only [hnw, at?, Option.bind_some] at hn
    simp only [Option.map_some]
    congr 2
    refine key nets n net _ _ hn ?_
    cases hcs : net.cells with
    | none => rfl
    | some rows =>
      simp only [hcs, at?, Option.bind_some] at hr
      simp only [Option.map_some]
      congr 2
      refine key rows r row _ _ hr ?_
      exact key row c cell _ _ hc hfg

/-- Row and column of a position, and back. -/
theorem pos_iff {cols r c p : Nat} (hc : c < cols) : (r = p / cols ∧ c = p % cols) ↔ r * cols + c = p := by
  constructor
  · rintro ⟨rfl, rfl⟩
    rw [Nat.mul_comm]; exact Nat.div_add_mod p cols
  · rintro rfl
    have h0 : 0 < cols := by omega
    constructor
    · rw [Nat.mul_comm, Nat.mul_add_div h0, Nat.div_eq_of_lt hc]; rfl
    · rw [Nat.mul_comm, Nat.mul_add_mod, Nat.mod_eq_of_lt hc]

theorem write_words {net : W32} {nt : Network} (hsz : nt.rows * nt.cols < 2^32) :
    ∀ (xs : List W32) (pos : W32) (ctx : Ctx) (nt' : Network), net.toNat < ctx.qty.networks → Fits ctx →
      at? ctx.network net.toNat = some nt' → nt'.rows = nt.rows → nt'.cols = nt.cols →
      (∀ i < xs.length, ∃ v, word? ctx net.toNat (pos.toNat + i) = some v ∧ tableKind v.type) →
      ∃ ctx', tableWrite net pos xs ctx = .ok (.ok, ctx') ∧ Fits ctx' ∧
        { ctx' with network := none } = { ctx with network := none } ∧
        ctx'.network.map (·.map head) = ctx.network.map (·.map head) ∧
        ∀ m r c, cell? ctx' m r c =
          if m = net.toNat ∧ c < nt.cols ∧ pos.toNat ≤ r * nt.cols + c ∧ r * nt.cols + c < pos.toNat + xs.length then
            (cell? ctx m r c).map (setRaw (xs.getD (r * nt.cols + c - pos.toNat) 0))
          else cell? ctx m r c
  | [], pos, ctx, nt', _, hf, _, _, _, _ => by
    refine ⟨ctx, rfl, hf, rfl, rfl, fun m r c => ?_⟩
    rw [if_neg (by simp only [List.length_nil]; omega)]
  | x :: xs, pos, ctx, nt', hq, hf, hn, hrows, hcols, h => by
    obtain ⟨v, hv, hk⟩ := h 0 (by simp)
    simp only [Nat.add_zero] at hv
    have hsz' : nt'.rows * nt'.cols < 2^32 := by rw [hrows, hcols]; exact hsz
    have hent := entry_word hq hn hsz' hv hk
    have hlt : pos.toNat < nt'.rows * nt'.cols := by
      by_cases hl : pos.toNat < nt'.rows * nt'.cols
      · exact hl
      · simp [word?, hn, hl] at hv
    have hcpos : 0 < nt'.cols := by
      rcases Nat.eq_zero_or_pos nt'.cols with h | h
      · simp [h] at hlt
      · exact h
    -- the cell being written
    have hv' := hv
    simp only [word?, hn, Option.bind_some, hlt, if_true, operand?, Option.bind_eq_some_iff] at hv'
    obtain ⟨cell, hcell, hd⟩ := hv'
    have hdq : 0 < cell.dataQty := by
      by_cases h : 0 < cell.dataQty
      · exact h
      · simp [h] at hd
    rw [if_pos hdq] at hd
    have hmod := modCell_congr (f := fun cell => { cell with data := aset cell.data 0 { v with raw := x } })
      (g := setRaw x) hcell (set_eq_setRaw hd)
    let ctx1 := ctx.modCell net.toNat (pos.toNat / nt'.cols) (pos.toNat % nt'.cols) (setRaw x)
    have hf1 : Fits ctx1 := hf.modCell _ _ _ _ fun cell h => fits_setRaw h
    have hh1 : ctx1.network.map (·.map head) = ctx.network.map (·.map head) := head_modCell _ _ _ _ _
    obtain ⟨nt1, hn1, hr1, hc1⟩ := network_head hh1 hn
    have hc? : ∀ m r c, cell? ctx1 m r c =
        if net.toNat = m ∧ pos.toNat / nt'.cols = r ∧ pos.toNat % nt'.cols = c then (cell? ctx m r c).map (setRaw x)
        else cell? ctx m r c := fun m r c => cell?_modCell _ _ _ _ _ _ _ _
    have hword : ∀ p u, word? ctx net.toNat p = some u → tableKind u.type →
        ∃ u', word? ctx1 net.toNat p = some u' ∧ tableKind u'.type := by
      intro p u hu hku
      by_cases hp : p < nt'.rows * nt'.cols
      · simp only [word?, hn, hn1, Option.bind_some, hp, hr1, hc1, if_true, operand?, Option.bind_eq_some_iff] at hu ⊢
        obtain ⟨ce, hce, hu⟩ := hu
        rw [hc?]
        by_cases hsame : net.toNat = net.toNat ∧ pos.toNat / nt'.cols = p / nt'.cols ∧ pos.toNat % nt'.cols = p % nt'.cols
        · rw [if_pos hsame, hce]
          have hpos : p = pos.toNat := by
            rw [← Nat.div_add_mod p nt'.cols, ← Nat.div_add_mod pos.toNat nt'.cols, hsame.2.1, hsame.2.2]
          subst hpos
          rw [hcell] at hce; cases hce
          refine ⟨{ v with raw := x }, ⟨setRaw x cell, rfl, ?_⟩, hk⟩
          have : (setRaw x cell).dataQty = cell.dataQty := rfl
          rw [this, if_pos hdq]
          simp only [setRaw]
          rw [at?_modify, if_pos rfl, hd]; rfl
        · rw [if_neg hsame, hce]
          exact ⟨u, ⟨ce, rfl, hu⟩, hku⟩
      · simp [word?, hn, hp] at hu
    have hnext : ∀ i < xs.length, ∃ u, word? ctx1 net.toNat ((pos + 1).toNat + i) = some u ∧ tableKind u.type := by
      intro i hi
      obtain ⟨u, hu, hku⟩ := h (i + 1) (by simp; omega)
      have hb : pos.toNat + (i + 1) < nt'.rows * nt'.cols := by
        by_cases hl : pos.toNat + (i + 1) < nt'.rows * nt'.cols
        · exact hl
        · simp [word?, hn, hl] at hu
      rw [toNat_add_one (by omega), Nat.add_assoc, Nat.add_comm 1]
      exact hword _ _ hu hku
    obtain ⟨ctx', hw, hf', hrest, hheads, hcells⟩ := write_words hsz xs (pos + 1) ctx1 nt1 hq hf1 hn1
      (by rw [hr1, hrows]) (by rw [hc1, hcols]) hnext
    refine ⟨ctx', ?_, hf', hrest, hheads.trans hh1, ?_⟩
    · unfold tableWrite
      simp only [hent]
      rw [hmod]
      exact hw
    · intro m r c
      rw [hcells, hc?]
      rw [hcols] at hlt hcpos ⊢
      by_cases hone : pos.toNat + 1 < 2^32
      · rw [toNat_add_one hone]
        by_cases hm : m = net.toNat
        · by_cases hcc : c < nt.cols
          · have hpi := pos_iff (r := r) (p := pos.toNat) hcc
            by_cases he : r * nt.cols + c = pos.toNat
            · have hrc := hpi.2 he
              rw [if_neg (by omega), if_pos ⟨hm.symm, hrc.1.symm, hrc.2.symm⟩, if_pos ⟨hm, hcc, by omega, by simp; omega⟩]
              simp [he]
            · have hrc : ¬ (net.toNat = m ∧ pos.toNat / nt.cols = r ∧ pos.toNat % nt.cols = c) :=
                fun hh => he (hpi.1 ⟨hh.2.1.symm, hh.2.2.symm⟩)
              by_cases hin : pos.toNat + 1 ≤ r * nt.cols + c ∧ r * nt.cols + c < pos.toNat + 1 + xs.length
              · rw [if_pos ⟨hm, hcc, hin.1, hin.2⟩, if_neg hrc, if_pos ⟨hm, hcc, by omega, by simp; omega⟩]
                have : r * nt.cols + c - pos.toNat = (r * nt.cols + c - (pos.toNat + 1)) + 1 := by omega
                rw [this, List.getD_cons_succ]
              · rw [if_neg (fun hh => hin hh.2.2), if_neg hrc, if_neg (by simp; omega)]
          · rw [if_neg (fun hh => hcc hh.2.1), if_neg, if_neg (fun hh => hcc hh.2.1)]
            rintro ⟨-, -, hh⟩
            exact hcc (by rw [← hh]; exact Nat.mod_lt _ hcpos)
        · rw [if_neg (fun hh => hm hh.1), if_neg (fun hh => hm hh.1.symm), if_neg (fun hh => hm hh.1)]
      · rw [hrows] at hlt; omega

/-! ### C24 -/

variable {w : World} {n r c : Nat} {l : Bool}

/-- C24 (partial): when both tables exist and are not enabled, the ranges lie inside them and consist of data words, TMOVE
copies exactly the requested words, from the values before the instruction, passes the power and changes nothing else.
Missing: see `C24_refuted`. -/
theorem C24_TMOVE_partial (env : Env) {dnet dpos snet spos qty : W32} {nd ns : Network} (hs : Site w.ctx n r c l)
    (h0 : Reads w.ctx n r c 0 dnet) (h1 : Reads w.ctx n r c 1 dpos) (h2 : Reads w.ctx n r c 2 snet)
    (h3 : Reads w.ctx n r c 3 spos) (h4 : Reads w.ctx n r c 4 qty)
    (hqty : 1 ≤ qty.toNat ∧ qty.toNat ≤ 1024)
    (hnets : w.ctx.qty.networks ≤ 2^31)
    (hdq : dnet.toNat < w.ctx.qty.networks) (hd : at? w.ctx.network dnet.toNat = some nd) (hde : nd.enable = false)
    (hds : nd.rows * nd.cols < 2^32)
    (hsq : snet.toNat < w.ctx.qty.networks) (hn : at? w.ctx.network snet.toNat = some ns) (hse : ns.enable = false)
    (hss : ns.rows * ns.cols < 2^32)
    (hdw : ∀ i < qty.toNat, ∃ v, word? w.ctx dnet.toNat (dpos.toNat + i) = some v ∧ tableKind v.type)
    (hsw : ∀ i < qty.toNat, ∃ v, word? w.ctx snet.toNat (spos.toNat + i) = some v ∧ tableKind v.type) :
    ∃ w' ctx', execIns env .TMOVE r c w = .ok (.ok, w') ∧
      Copied w.ctx ctx' nd.cols dnet.toNat dpos.toNat snet.toNat spos.toNat qty.toNat ∧
      Only ctx' w'.ctx [.cell n r c] ∧ load w'.ctx (.cell n r c) = some l.toNat ∧
      w'.tick = w.tick ∧ w'.trace = w.trace := by
  have hqi : qty.toInt = qty.toNat := toInt_of_lt (by omega)
  have hqn : (if qty.toInt < 0 ∨ qty.toInt > 1024 then 0 else qty.toNat) = qty.toNat := by
    rw [if_neg (by omega)]
  have hbound : ∀ {net : W32} {nt : Network} {pos : W32}, at? w.ctx.network net.toNat = some nt →
      (∀ i < qty.toNat, ∃ v, word? w.ctx net.toNat (pos.toNat + i) = some v ∧ tableKind v.type) →
      pos.toNat + qty.toNat ≤ nt.rows * nt.cols := by
    intro net nt pos hnt h
    obtain ⟨v, hv, -⟩ := h (qty.toNat - 1) (by omega)
    by_cases hl : pos.toNat + (qty.toNat - 1) < nt.rows * nt.cols
    · omega
    · simp [word?, hnt, hl] at hv
  have hdb := hbound hd hdw
  have hsb := hbound hn hsw
  have hofs : ∀ pos : W32, pos.toNat + qty.toNat < 2^32 → (pos + BitVec.ofNat 32 qty.toNat).toNat = pos.toNat + qty.toNat := by
    intro pos hp
    rw [BitVec.toNat_add, BitVec.toNat_ofNat, Nat.mod_eq_of_lt (a := qty.toNat) (by omega)]; exact Nat.mod_eq_of_lt hp
  have hde' : agetI w.ctx.network dnet.toInt = .ok nd := by
    rw [toInt_of_lt (by omega)]; unfold agetI; rw [if_neg (by omega)]; exact aget_eq_ok.2 (by simpa using hd)
  have hse' : agetI w.ctx.network snet.toInt = .ok ns := by
    rw [toInt_of_lt (by omega)]; unfold agetI; rw [if_neg (by omega)]; exact aget_eq_ok.2 (by simpa using hn)
  have hread := read_words hsq hn hss qty.toNat spos hsw
  obtain ⟨ctx', hwr, hf', hrest, hheads, hcells⟩ := write_words hds
    ((List.range qty.toNat).map fun i => rawAt w.ctx snet.toNat (spos.toNat + i)) dpos w.ctx nd hdq hs.fits hd rfl rfl
    (by simpa using hdw)
  have hcop : Copied w.ctx ctx' nd.cols dnet.toNat dpos.toNat snet.toNat spos.toNat qty.toNat := by
    refine ⟨hrest, hheads, fun m r c => ?_⟩
    rw [hcells]
    simp only [List.length_map, List.length_range]
    split
    · rename_i hin
      congr 2
      rw [List.getD_eq_getElem?_getD, List.getElem?_map, List.getElem?_range (by omega)]
      rfl
    · rfl
  have hexec : ctx'.exec = some n := by
    have : ctx'.exec = w.ctx.exec := (congrArg Ctx.exec hrest :)
    rw [this]; exact hs.exec
  have hstate : ∀ m r c, (cell? ctx' m r c).map (·.state) = (cell? w.ctx m r c).map (·.state) := by
    intro m r c
    rw [hcells]; split
    · rw [Option.map_map]; rfl
    · rfl
  have hcell' : (load ctx' (.cell n r c)).isSome := by
    have := hs.cell
    simp only [load, Option.isSome_map] at this ⊢
    have e := congrArg Option.isSome (hstate n r c)
    simp only [Option.isSome_map] at e
    rw [e]; exact this
  have hleft : leftPower ctx' n r c = some l := by
    rw [← hs.left]; unfold leftPower; split
    · rfl
    · exact hstate _ _ _
  have hl : getLeft r c ({ w with ctx := ctx' } : World) = .ok (l, { w with ctx := ctx' }) := getLeft_ok hexec hleft
  have hst : setState r c l ({ w with ctx := ctx' } : World) =
      .ok ((), { w with ctx := upd ctx' (.cell n r c) l.toNat }) := setState_ok hexec hcell'
  refine ⟨{ w with ctx := upd ctx' (.cell n r c) l.toNat }, ctx', ?_, hcop, Only.upd _ _ _,
    load_upd_self _ _ _ hcell' (bool_lt_cell l), rfl, rfl⟩
  simp only [execIns, fnTMOVE, bind_apply, hs.getData h0, hs.getData h1, hs.getData h2, hs.getData h3, hs.getData h4, hqn]
  simp only [ite_apply, show ¬ qty.toNat = 0 by omega, if_false, bind_apply, getCtx_apply, hde', lift_ok, hde, hse', hse]
  simp only [hofs dpos (by omega), hofs spos (by omega), Network.size32, Nat.mod_eq_of_lt hds, Nat.mod_eq_of_lt hss]
  simp only [Bool.false_eq_true, if_false, pure_apply]
  rw [if_neg (by omega)]
  simp [hread, hwr, hl, hst]

/-- What a table must satisfy to be usable: it is one of the configured networks, it has its matrix, and cells with
operands have their operand block. -/
structure Table (ctx : Ctx) (net : Nat) (nt : Network) : Prop where
  number : net < ctx.qty.networks
  here : at? ctx.network net = some nt
  cells : nt.cells.isSome
  data : ∀ r c cell, cell? ctx net r c = some cell → 0 < cell.dataQty → cell.data.isSome
  size : nt.rows * nt.cols + 1024 < 2^32

/-- Reading a table entry is never undefined, and yields the word or an error. -/
theorem entry_total {ctx : Ctx} {net pos : W32} {nt : Network} (hf : Fits ctx) (ht : Table ctx net.toNat nt) :
    (∃ v, tableEntry ctx net pos = .ok (.ok (pos.toNat / nt.cols, pos.toNat % nt.cols, v)) ∧
      word? ctx net.toNat pos.toNat = some v ∧ tableKind v.type) ∨
    (∃ e, tableEntry ctx net pos = .ok (.error e) ∧ e ≠ .ok ∧
      ¬ ∃ v, word? ctx net.toNat pos.toNat = some v ∧ tableKind v.type) := by
  have hsz := ht.size
  have hq := ht.number
  unfold tableEntry word?
  rw [if_neg (by omega)]
  simp only [aget_eq_ok.2 ht.here, Network.size32, Nat.mod_eq_of_lt (show nt.rows * nt.cols < 2^32 by omega), ht.here,
    Option.bind_some]
  by_cases hlt : pos.toNat < nt.rows * nt.cols
  · have hcols : 0 < nt.cols := by
      rcases Nat.eq_zero_or_pos nt.cols with h | h
      · simp [h] at hlt
      · exact h
    have h1 : pos.toNat / nt.cols < nt.rows := (Nat.div_lt_iff_lt_mul hcols).2 hlt
    have h2 : pos.toNat % nt.cols < nt.cols := Nat.mod_lt _ hcols
    obtain ⟨rows, hrows⟩ := Option.isSome_iff_exists.1 ht.cells
    obtain ⟨nets, hnets, hmem⟩ := mem_of_at? ht.here
    have hg := hf.network nets hnets nt hmem
    have hl := hg.rows rows hrows
    have hr : rows[pos.toNat / nt.cols]? = some (rows[pos.toNat / nt.cols]'(by omega)) := List.getElem?_eq_getElem _
    have hc := hg.cols rows hrows _ (List.getElem_mem (l := rows) (n := pos.toNat / nt.cols) (by omega))
    generalize rows[pos.toNat / nt.cols]'(by omega) = row at hr hc
    have hcl : row[pos.toNat % nt.cols]? = some (row[pos.toNat % nt.cols]'(by omega)) := List.getElem?_eq_getElem _
    generalize row[pos.toNat % nt.cols]'(by omega) = cell at hcl
    have hcell : nt.cell (pos.toNat / nt.cols) (pos.toNat % nt.cols) = .ok cell := by
      unfold Network.cell; simp [hrows, hr, hcl]
    have hcell? : cell? ctx net.toNat (pos.toNat / nt.cols) (pos.toNat % nt.cols) = some cell := by
      unfold cell?; rw [ht.here]; simp [at?, hrows, hr, hcl]
    rw [if_neg (by omega), if_neg (by omega)]
    simp only [hcell, operand?, hcell?, Option.bind_some, if_pos hlt]
    by_cases hd : 0 < cell.dataQty
    · obtain ⟨d, hdd⟩ := Option.isSome_iff_exists.1 (ht.data _ _ _ hcell? hd)
      have hlen : d.length = cell.dataQty :=
        hg.data rows hrows row (List.mem_of_getElem? hr) cell (List.mem_of_getElem? hcl) d hdd
      have hd0 : at? cell.data 0 = some (d[0]'(by omega)) := by simp [hdd, at?]
      generalize d[0]'(by omega) = v at hd0
      rw [if_neg (by omega), if_pos hd]
      simp only [aget_eq_ok.2 hd0, hd0]
      by_cases hk : isTableReg v.type = true
      · left
        rw [if_pos hk]
        refine ⟨v, rfl, rfl, ?_⟩
        unfold isTableReg at hk
        unfold tableKind
        split at hk <;> simp_all
      · right
        rw [if_neg hk]
        refine ⟨_, rfl, by simp, ?_⟩
        rintro ⟨v', hv', hk'⟩
        cases hv'
        rcases hk' with h | h | h <;> simp [h, isTableReg] at hk
    · right
      rw [if_pos (by omega), if_neg hd]
      exact ⟨_, rfl, by simp, by simp⟩
  · right
    rw [if_pos (by omega), if_neg hlt]
    exact ⟨_, rfl, by simp, by simp⟩

/-- The read loop delivers all the words or an error. -/
theorem read_total {ctx : Ctx} {net : W32} {nt : Network} (hf : Fits ctx) (ht : Table ctx net.toNat nt) :
    ∀ (k : Nat) (pos : W32), k ≤ 1024 →
      (tableRead ctx net pos k = .ok (.ok ((List.range k).map fun i => rawAt ctx net.toNat (pos.toNat + i))) ∧
        ∀ i < k, ∃ v, word? ctx net.toNat (pos.toNat + i) = some v ∧ tableKind v.type) ∨
      (∃ e, tableRead ctx net pos k = .ok (.error e) ∧ e ≠ .ok)
  | 0, _, _ => by left; simp [tableRead]
  | k + 1, pos, hk1 => by
    rcases entry_total (pos := pos) hf ht with ⟨v, he, hv, hk⟩ | ⟨e, he, hne, -⟩
    · have hlt : pos.toNat < nt.rows * nt.cols := by
        by_cases h : pos.toNat < nt.rows * nt.cols
        · exact h
        · simp [word?, ht.here, h] at hv
      have hs : (pos + 1).toNat = pos.toNat + 1 := toNat_add_one (by have := ht.size; omega)
      rcases read_total hf ht k (pos + 1) (by omega) with ⟨hr, hw⟩ | ⟨e, hr, hne⟩
      · left
        constructor
        · unfold tableRead
          simp only [he, hr]
          rw [List.range_succ_eq_map (n := k), List.map_cons, List.map_map]
          congr 3
          · simp [rawAt, hv]
          · apply List.map_congr_left
            intro i _
            simp only [Function.comp, hs]
            congr 1; omega
        · intro i hi
          cases i with
          | zero => exact ⟨v, hv, hk⟩
          | succ i =>
            obtain ⟨v', hv', hk'⟩ := hw i (by omega)
            rw [hs] at hv'
            exact ⟨v', by rw [← hv']; congr 1; omega, hk'⟩
      · right
        exact ⟨e, by unfold tableRead; simp only [he, hr], hne⟩
    · right
      exact ⟨e, by unfold tableRead; simp only [he], hne⟩

/-- The number of words a table move transfers: requests outside 0..1024 transfer nothing. -/
def moveCount (qty : W32) : Nat := if qty.toNat ≤ 1024 then qty.toNat else 0

/-- C24 (partial): a table move whose two operands name existing tables, the destination holding data words only, either
copies exactly the requested words as if through a temporary buffer, or reports an error and changes no table and no
register.  Missing: see `C24_refuted`. -/
theorem C24_all_or_nothing_partial (env : Env) {dnet dpos snet spos qty : W32} {nd ns : Network} (hs : Site w.ctx n r c l)
    (h0 : Reads w.ctx n r c 0 dnet) (h1 : Reads w.ctx n r c 1 dpos) (h2 : Reads w.ctx n r c 2 snet)
    (h3 : Reads w.ctx n r c 3 spos) (h4 : Reads w.ctx n r c 4 qty) (hnets : w.ctx.qty.networks ≤ 2^31)
    (htd : Table w.ctx dnet.toNat nd) (hts : Table w.ctx snet.toNat ns)
    (hdata : ∀ p < nd.rows * nd.cols, ∃ v, word? w.ctx dnet.toNat p = some v ∧ tableKind v.type) :
    ∃ e w', execIns env .TMOVE r c w = .ok (e, w') ∧ w'.tick = w.tick ∧ w'.trace = w.trace ∧
      ((e = .ok ∧ load w'.ctx (.cell n r c) = some l.toNat ∧ ∃ ctx',
          Copied w.ctx ctx' nd.cols dnet.toNat dpos.toNat snet.toNat spos.toNat (moveCount qty) ∧
          Only ctx' w'.ctx [.cell n r c]) ∨
       (e ≠ .ok ∧ load w'.ctx (.cell n r c) = some 0 ∧ Only w.ctx w'.ctx [.cell n r c])) := by
  have hfail : ∀ e, e ≠ .ok → execIns env .TMOVE r c w = .ok (e, w.upd (.cell n r c) 0) →
      ∃ e w', execIns env .TMOVE r c w = .ok (e, w') ∧ w'.tick = w.tick ∧ w'.trace = w.trace ∧
      ((e = .ok ∧ load w'.ctx (.cell n r c) = some l.toNat ∧ ∃ ctx',
          Copied w.ctx ctx' nd.cols dnet.toNat dpos.toNat snet.toNat spos.toNat (moveCount qty) ∧
          Only ctx' w'.ctx [.cell n r c]) ∨
       (e ≠ .ok ∧ load w'.ctx (.cell n r c) = some 0 ∧ Only w.ctx w'.ctx [.cell n r c])) :=
    fun e he hx => ⟨e, _, hx, rfl, rfl, .inr ⟨he, load_upd_self _ _ _ hs.cell (bool_lt_cell false), Only.upd _ _ _⟩⟩
  have hcnt : (if qty.toInt < 0 ∨ qty.toInt > 1024 then 0 else qty.toNat) = moveCount qty := by
    unfold moveCount
    by_cases hq : qty.toNat ≤ 1024
    · rw [toInt_of_lt (by omega), if_neg (by omega), if_pos hq]
    · rw [if_neg hq, if_pos]
      by_cases hb : qty.toNat < 2^31
      · rw [toInt_of_lt hb]; omega
      · have := toInt_neg_of_ge hb; omega
  have hstart : execIns env .TMOVE r c w = _ := rfl
  conv at hstart => rhs; simp only [execIns, fnTMOVE, bind_apply, hs.getData h0, hs.getData h1, hs.getData h2, hs.getData h3, hs.getData h4, hcnt]
  by_cases hz : moveCount qty = 0
  · refine ⟨.ok, w.upd (.cell n r c) l.toNat, ?_, rfl, rfl, .inl ⟨rfl, load_upd_self _ _ _ hs.cell (bool_lt_cell l),
      w.ctx, ⟨rfl, rfl, fun m r c => ?_⟩, Only.upd _ _ _⟩⟩
    · rw [hstart]; simp [hz, hs.getLeft, hs.setState]
    · rw [hz, if_neg (by omega)]
  have hm : moveCount qty = qty.toNat ∧ qty.toNat ≤ 1024 := by
    unfold moveCount at hz ⊢; split at hz <;> simp_all
  have hde' : agetI w.ctx.network dnet.toInt = .ok nd := by
    have := htd.number
    rw [toInt_of_lt (by omega)]; unfold agetI; rw [if_neg (by omega)]; exact aget_eq_ok.2 (by simpa using htd.here)
  have hse' : agetI w.ctx.network snet.toInt = .ok ns := by
    have := hts.number
    rw [toInt_of_lt (by omega)]; unfold agetI; rw [if_neg (by omega)]; exact aget_eq_ok.2 (by simpa using hts.here)
  simp only [ite_apply, hz, if_false, bind_apply, getCtx_apply, hde', lift_ok, hse'] at hstart
  have hdsz := htd.size
  have hssz := hts.size
  by_cases hen : nd.enable = true ∨ ns.enable = true
  · refine hfail .noTable (by simp) ?_
    rw [hstart]
    rcases hen with h | h
    · simp [h, hs.setState]
    · cases hd : nd.enable <;> simp [h, hs.setState]
  have hde : nd.enable = false := by cases h : nd.enable <;> simp_all
  have hse : ns.enable = false := by cases h : ns.enable <;> simp_all
  simp only [hde, hse, Bool.false_eq_true, if_false, pure_apply] at hstart
  by_cases hbig : (dpos + BitVec.ofNat 32 (moveCount qty)).toNat > nd.size32 ∨
      (spos + BitVec.ofNat 32 (moveCount qty)).toNat > ns.size32
  · refine hfail .outOfRange (by simp) ?_
    rw [hstart, if_pos hbig]
    simp [hs.setState]
  rw [if_neg hbig] at hstart
  rcases read_total hs.fits hts (moveCount qty) spos (by omega) with ⟨hr, hsw⟩ | ⟨e, hr, hne⟩
  · by_cases hdp : dpos.toNat < nd.rows * nd.cols
    · have hsum : dpos.toNat + moveCount qty ≤ nd.rows * nd.cols := by
        simp only [Network.size32, Nat.mod_eq_of_lt (show nd.rows * nd.cols < 2^32 by omega), BitVec.toNat_add,
          BitVec.toNat_ofNat, Nat.mod_eq_of_lt (show moveCount qty < 2^32 by omega)] at hbig
        rw [Nat.mod_eq_of_lt (show dpos.toNat + moveCount qty < 2^32 by omega)] at hbig
        omega
      obtain ⟨w', ctx', hx, hcop, honly, hload, htick, htrace⟩ := C24_TMOVE_partial env hs h0 h1 h2 h3 h4 (by omega) hnets
        htd.number htd.here hde (by omega) hts.number hts.here hse (by omega)
        (fun i hi => hdata _ (by omega)) (fun i hi => hsw i (by omega))
      exact ⟨.ok, w', hx, htick, htrace, .inl ⟨rfl, hload, ctx', by rw [hm.1]; exact hcop, honly⟩⟩
    · have hnone : word? w.ctx dnet.toNat dpos.toNat = none := by simp [word?, htd.here, hdp]
      rcases entry_total (pos := dpos) hs.fits htd with ⟨v, -, hv, -⟩ | ⟨e, he, hne, -⟩
      · rw [hnone] at hv; cases hv
      · refine hfail e hne ?_
        rw [hstart]
        simp only [bind_apply, hr, lift_ok]
        have : tableWrite dnet dpos ((List.range (moveCount qty)).map fun i => rawAt w.ctx snet.toNat (spos.toNat + i)) w.ctx
            = .ok (e, w.ctx) := by
          cases hl : moveCount qty with
          | zero => exact absurd hl hz
          | succ k =>
            rw [List.range_succ_eq_map, List.map_cons]
            unfold tableWrite
            simp only [he]
        simp [this, hne, hs.setState]
  · refine hfail e hne ?_
    rw [hstart]
    simp [hr, hs.setState]

/-! ### Concrete cases -/

/-- Network 0 moves `qty` words from position `spos` of table `snet` to position `dpos` of table `dnet`; tables 1 and 2
hold four words each, the last word of table 2 being a flag operand. -/
def demoTables (dnet dpos snet spos qty : Nat) : List Network :=
  [Demo.net [[Demo.ins .TMOVE [Demo.op .NONE dnet, Demo.op .NONE dpos, Demo.op .NONE snet, Demo.op .NONE spos,
      Demo.op .NONE qty]]],
   Demo.net [[Demo.ins .NOP [Demo.op .D 10], Demo.ins .NOP [Demo.op .D 11]],
             [Demo.ins .NOP [Demo.op .IW 12], Demo.ins .NOP [Demo.op .QW 13]]] (enable := false),
   Demo.net [[Demo.ins .NOP [Demo.op .D 20], Demo.ins .NOP [Demo.op .D 21]],
             [Demo.ins .NOP [Demo.op .D 22], Demo.ins .NOP [Demo.op .M 2]]] (enable := false)]

theorem demoTables_site (dnet dpos snet spos qty : Nat) :
    Site (Demo.world (demoTables dnet dpos snet spos qty)).ctx 0 0 0 true :=
  ⟨Demo.fits _ rfl, rfl, rfl, rfl⟩

/-- An overlapping move inside table 1 meets the hypotheses of both theorems. -/
example : ∃ e w', execIns Demo.env .TMOVE 0 0 (Demo.world (demoTables 1 1 1 0 3)) = .ok (e, w') ∧
    w'.tick = 0 ∧ w'.trace = [] ∧
      ((e = .ok ∧ load w'.ctx (.cell 0 0 0) = some 1 ∧ ∃ ctx',
          Copied (Demo.ctx (demoTables 1 1 1 0 3)) ctx' 2 1 1 1 0 3 ∧ Only ctx' w'.ctx [.cell 0 0 0]) ∨
       (e ≠ .ok ∧ load w'.ctx (.cell 0 0 0) = some 0 ∧ Only (Demo.ctx (demoTables 1 1 1 0 3)) w'.ctx [.cell 0 0 0])) := by
  have ht : Table (Demo.ctx (demoTables 1 1 1 0 3)) 1 ((demoTables 1 1 1 0 3)[1]) := by
    refine ⟨by decide, rfl, rfl, ?_, by decide⟩
    intro r c cell h _
    match r, c, h with
    | 0, 0, h | 0, 1, h | 1, 0, h | 1, 1, h => cases h; rfl
  exact C24_all_or_nothing_partial Demo.env (w := Demo.world (demoTables 1 1 1 0 3)) (demoTables_site ..)
    (dnet := 1) (dpos := 1) (snet := 1) (spos := 0) (qty := 3)
    ⟨_, rfl, rfl⟩ ⟨_, rfl, rfl⟩ ⟨_, rfl, rfl⟩ ⟨_, rfl, rfl⟩ ⟨_, rfl, rfl⟩ (by decide) ht ht (by
      intro p hp
      match p, hp with
      | 0, _ | 1, _ => exact ⟨_, rfl, .inl rfl⟩
      | 2, _ => exact ⟨_, rfl, .inr (.inl rfl)⟩
      | 3, _ => exact ⟨_, rfl, .inr (.inr rfl)⟩)

/-- The result of that move: 10 10 11 12. -/
example : (match execIns Demo.env .TMOVE 0 0 (Demo.world (demoTables 1 1 1 0 3)) with
    | .ok (.ok, w') => [0, 1, 2, 3].map fun p => (rawAt w'.ctx 1 p).toNat
    | _ => []) = [10, 10, 11, 12] := by rfl

/-- C24 does not hold in general: a move whose last destination word is not a data word reports an error after having
overwritten the first ones, and a move naming a table that does not exist reads outside the network array. -/
theorem C24_refuted :
    (∃ (w w' : World) (e : Err), Site w.ctx 0 0 0 true ∧ e ≠ .ok ∧ execIns Demo.env .TMOVE 0 0 w = .ok (e, w') ∧
      rawAt w.ctx 2 1 = 21 ∧ rawAt w'.ctx 2 1 = 10) ∧
    (∃ w : World, Site w.ctx 0 0 0 true ∧ execIns Demo.env .TMOVE 0 0 w = .error .oob) :=
  ⟨⟨Demo.world (demoTables 2 1 1 0 3), _, .typeMismatch, demoTables_site .., by simp, rfl, rfl, rfl⟩,
   ⟨Demo.world (demoTables 7 1 1 0 3), demoTables_site .., rfl⟩⟩

end Ladder.Props
