import Verif.Linalg.Model
/-!
# Model of the banded solvers and the Hessenberg reduction of `src/linalg`: `decb`, `solb`, `decbc`, `solbc`, `elmhes`

Nothing in the crate calls these routines. As in `Verif.Linalg.Model`, arrays are total functions on `Nat`. Differences
of `usize` which can be negative are modelled as panics (builds with overflow checks). All other differences below are
nonnegative whenever they are evaluated: in `decb` and `decbc` the column loop decrements `m`, which starts at `lb + ub`
or above, at most `lb + ub - 1` times.
-/

namespace Cyphus
namespace Linalg

variable {F : Type} [Add F] [Sub F] [Mul F] [Div F] [Neg F] [OfScientific F] [Fl F]

/-- State of a real banded decomposition: `ju` is the loop-carried column limit, src/linalg/dec.rs:317. -/
structure BandSt (F : Type) extends LuSt F where
  ju : Nat

/-- Zeroing of the fill-in rows, src/linalg/dec.rs:319-325 and 403-410. -/
def zeroFill (n lb ub : Nat) (a : NMat F) : NMat F :=
  if n ≥ ub + 2 then
    forRange (ub + 1) n a fun a j => forRange 0 lb a fun a i => set2 a i j 0.0
  else a

/-- The pivot search, src/linalg/dec.rs:329-335. The range `md1..mdl` leaves out the last row of the band. -/
def pivotb (a : NMat F) (k md mdl : Nat) : Nat :=
  forRange (md + 1) mdl md fun m i => if Fl.gt (Fl.abs (a i k)) (Fl.abs (a m k)) then i else m

/-- The update of column `j`, src/linalg/dec.rs:358-369. -/
def elimColb (k md mdl : Nat) (a : NMat F) (m j : Nat) : NMat F :=
  let mm := md - 1
  let t := a m j
  let a := if m ≠ mm then set2 (set2 a m j (a mm j)) mm j t else a
  if !Fl.eq t 0.0 then
    forRange (md + 1) mdl a fun a i => set2 a (i - (j - k)) j (a (i - (j - k)) j + a i k * t)
  else a

/-- One iteration of the outer loop of `decb`, src/linalg/dec.rs:327-372. Line 357 declares a new `mm`, so `mm` is
`md - 1` for every column. -/
def decbBody (n lb ub : Nat) (st : BandSt F) (k : Nat) : BandSt F :=
  match st.ret with
  | some _ => st
  | none =>
    let md := ub + lb
    let mdl := min lb (n - k - 1) + md
    let m := pivotb st.a k md mdl
    let t := st.a m k
    let ip := set1 st.ip k ((m + k - md : Nat) : Int)
    let ip := if m ≠ md then set1 ip (n - 1) (-(ip (n - 1))) else ip
    let a := if m ≠ md then set2 (set2 st.a m k (st.a md k)) md k t else st.a
    if Fl.eq t 0.0 then { st with a := a, ip := set1 ip (n - 1) 0, ret := some k }
    else
      let t := 1.0 / t
      let a := forRange (md + 1) (mdl + 1) a fun a i => set2 a i k (a i k * -t)
      let ju := min (max st.ju (ub + (ip k).toNat + 1)) n
      let a := if ju ≥ k + 1 then
          (forRange (k + 1) ju (a, m) fun p j => (elimColb k md mdl p.1 (p.2 - 1) j, p.2 - 1)).1
        else a
      { st with a := a, ip := ip, ju := ju }

/-- `decb`, src/linalg/dec.rs:306-380: the final matrix and pivots, and the returned code. -/
def decb (n : Nat) (a : NMat F) (lb ub : Nat) (ip : Nat → Int) : Res (LuSt F × Nat) :=
  if n = 0 then .panic else
  let md := ub + lb
  let st : BandSt F := { a := a, ip := set1 ip (n - 1) 1, ret := none, ju := 0 }
  let st := if n ≠ 1 ∧ lb ≠ 0 then
      forRange 0 (n - 1) { st with a := zeroFill n lb ub a } (decbBody n lb ub)
    else st
  match st.ret with
  | some k => .ok (st.toLuSt, k)
  | none =>
    if Fl.eq (st.a md (n - 1)) 0.0 then .ok ({ st.toLuSt with ip := set1 st.ip (n - 1) 0 }, n)
    else .ok (st.toLuSt, 0)

/-- One iteration of the backward loop of `solb`, src/linalg/sol.rs:195-205. The difference `md - kb` of line 199 is
negative in columns to the right of `md`. -/
def backStepb (a : NMat F) (n md : Nat) (b : NVec F) (k : Nat) : Res (NVec F) :=
  let kb := n - k - 1
  let b := set1 b kb (b kb / a md kb)
  let t := -(b kb)
  if md < kb then .panic else
  let kmd := md - kb
  .ok (forRange kmd md b fun b i => set1 b (i - kmd) (b (i - kmd) + a i kb * t))

/-- `solb`, src/linalg/sol.rs:169-208. Line 179 computes `md - 1`. -/
def solb (n : Nat) (a : NMat F) (lb ub : Nat) (b : NVec F) (ip : Nat → Int) : Res (NVec F) :=
  let md := lb + ub
  if md = 0 ∨ n = 0 then .panic else
  let r : Res (NVec F) :=
    if n ≠ 1 then
      let b := if lb ≠ 0 then
          forRange 0 (n - 1) b fun b k =>
            let m := (ip k).toNat
            let t := b m
            let b := set1 b m (b k)
            let b := set1 b k t
            let mdl := min lb (n - k - 1) + md
            forRange (md + 1) (mdl + 1) b fun b i => set1 b (i + k - md) (b (i + k - md) + a i k * t)
        else b
      forRange 0 (n - 1) (.ok b) fun r k => r.bind fun b => backStepb a n md b k
    else .ok b
  r.bind fun b => .ok (set1 b 0 (b 0 / a md 0))

/-- State of a complex banded decomposition. -/
structure BandcSt (F : Type) extends LucSt F where
  ju : Nat

/-- The complex pivot search, src/linalg/dec.rs:414-420. -/
def pivotbc (ar ai : NMat F) (k md mdl : Nat) : Nat :=
  forRange (md + 1) mdl md fun m i =>
    if Fl.gt (Fl.abs (ar i k) + Fl.abs (ai i k)) (Fl.abs (ar m k) + Fl.abs (ai m k)) then i else m

/-- The update of column `j`, src/linalg/dec.rs:451-487. -/
def elimColbc (k md mdl : Nat) (p : NMat F × NMat F) (m mm j : Nat) : NMat F × NMat F :=
  let tr := p.1 m j
  let ti := p.2 m j
  let ar := if m ≠ mm then set2 (set2 p.1 m j (p.1 mm j)) mm j tr else p.1
  let ai := if m ≠ mm then set2 (set2 p.2 m j (p.2 mm j)) mm j ti else p.2
  let add := fun (prodr prodi : NMat F × NMat F → Nat → F) =>
    forRange (md + 1) mdl (ar, ai) fun p i =>
      (set2 p.1 (i - (j - k)) j (p.1 (i - (j - k)) j + prodr p i), set2 p.2 (i - (j - k)) j (p.2 (i - (j - k)) j + prodi p i))
  if Fl.eq (Fl.abs tr + Fl.abs ti) 0.0 then (ar, ai)
  else if Fl.eq ti 0.0 then add (fun p i => p.1 i k * tr) (fun p i => p.2 i k * tr)
  else if Fl.eq tr 0.0 then add (fun p i => -(p.2 i k) * ti) (fun p i => p.1 i k * ti)
  else add (fun p i => p.1 i k * tr - p.2 i k * ti) (fun p i => p.2 i k * tr + p.1 i k * ti)

/-- One iteration of the outer loop of `decbc`, src/linalg/dec.rs:412-490. Line 424 compares `m` with `k` where `decb`
has `md`, and the multipliers are computed for `md1..mdl` only (line 439). -/
def decbcBody (n lb ub : Nat) (st : BandcSt F) (k : Nat) : BandcSt F :=
  match st.ret with
  | some _ => st
  | none =>
    let md := lb + ub
    let mdl := min lb (n - k - 1) + md
    let m := pivotbc st.ar st.ai k md mdl
    let tr := st.ar m k
    let ti := st.ai m k
    let ip := set1 st.ip k ((m + k - md : Nat) : Int)
    let ip := if m ≠ k then set1 ip (n - 1) (-(ip (n - 1))) else ip
    let ar := if m ≠ k then set2 (set2 st.ar m k (st.ar md k)) md k tr else st.ar
    let ai := if m ≠ k then set2 (set2 st.ai m k (st.ai md k)) md k ti else st.ai
    if Fl.eq (Fl.abs tr + Fl.abs ti) 0.0 then
      { st with ar := ar, ai := ai, ip := set1 ip (n - 1) 0, ret := some k }
    else
      let den := tr * tr + ti * ti
      let tr := tr / den
      let ti := -ti / den
      let p := scaleColc (ar, ai) k (md + 1) mdl tr ti
      let ju := min (max st.ju (ub + (ip k).toNat + 1)) n
      let p := if ju ≥ k + 1 then
          (forRange (k + 1) ju (p, m, md) fun q j =>
            (elimColbc k md mdl q.1 (q.2.1 - 1) (q.2.2 - 1) j, q.2.1 - 1, q.2.2 - 1)).1
        else p
      { st with ar := p.1, ai := p.2, ip := ip, ju := ju }

/-- `decbc`, src/linalg/dec.rs:389-498. -/
def decbc (n : Nat) (ar ai : NMat F) (lb ub : Nat) (ip : Nat → Int) : Res (LucSt F × Nat) :=
  if n = 0 then .panic else
  let md := lb + ub
  let st : BandcSt F := { ar := ar, ai := ai, ip := set1 ip (n - 1) 1, ret := none, ju := 0 }
  let st := if n ≠ 1 ∧ lb ≠ 0 then
      forRange 0 (n - 1) { st with ar := zeroFill n lb ub ar, ai := zeroFill n lb ub ai } (decbcBody n lb ub)
    else st
  match st.ret with
  | some k => .ok (st.toLucSt, k)
  | none =>
    if Fl.eq (Fl.abs (st.ar md (n - 1)) + Fl.abs (st.ai md (n - 1))) 0.0 then
      .ok ({ st.toLucSt with ip := set1 st.ip (n - 1) 0 }, n)
    else .ok (st.toLucSt, 0)

/-- Complex division of entry `kb` by the diagonal of the band, src/linalg/sol.rs:246-250 and 263-267. -/
def divBandc (ar ai : NMat F) (md : Nat) (b : NVec F × NVec F) (kb : Nat) : NVec F × NVec F :=
  let den := ar md kb * ar md kb + ai md kb * ai md kb
  let prodr := b.1 kb * ar md kb + b.2 kb * ai md kb
  let prodi := b.2 kb * ar md kb - b.1 kb * ai md kb
  (set1 b.1 kb (prodr / den), set1 b.2 kb (prodi / den))

/-- One iteration of the backward loop of `solbc`, src/linalg/sol.rs:244-262. -/
def backStepbc (ar ai : NMat F) (n md : Nat) (b : NVec F × NVec F) (k : Nat) : Res (NVec F × NVec F) :=
  let kb := n - k - 1
  let b := divBandc ar ai md b kb
  let tr := -(b.1 kb)
  let ti := -(b.2 kb)
  if md < kb then .panic else
  let kmd := md - kb
  .ok (forRange kmd md b fun b i =>
    let prodr := ar i kb * tr - ai i kb * ti
    let prodi := ai i kb * tr + ar i kb * ti
    (set1 b.1 (i - kmd) (b.1 (i - kmd) + prodr), set1 b.2 (i - kmd) (b.2 (i - kmd) + prodi)))

/-- `solbc`, src/linalg/sol.rs:210-269. The final division is inside of the test `n != 1`. -/
def solbc (n : Nat) (ar ai : NMat F) (lb ub : Nat) (b : NVec F × NVec F) (ip : Nat → Int) : Res (NVec F × NVec F) :=
  let md := lb + ub
  if md = 0 ∨ n = 0 then .panic else
  if n ≠ 1 then
    let b := if lb ≠ 0 then
        forRange 0 (n - 1) b fun b k =>
          let m := (ip k).toNat
          let tr := b.1 m
          let ti := b.2 m
          let b := (set1 (set1 b.1 m (b.1 k)) k tr, set1 (set1 b.2 m (b.2 k)) k ti)
          let mdl := min lb (n - k - 1) + md
          forRange (md + 1) (mdl + 1) b fun b i =>
            let prodr := ar i k * tr - ai i k * ti
            let prodi := ai i k * tr + ar i k * ti
            (set1 b.1 (i + k - md) (b.1 (i + k - md) + prodr), set1 b.2 (i + k - md) (b.2 (i + k - md) + prodi))
      else b
    (forRange 0 (n - 1) (.ok b) fun (r : Res (NVec F × NVec F)) k => r.bind fun b => backStepbc ar ai n md b k).bind
      fun b => .ok (divBandc ar ai md b 0)
  else .ok b

/-- State of `elmhes`; `ret` is set by the `return` of line 543. -/
structure HesSt (F : Type) where
  a : NMat F
  inter : Nat → Int
  ret : Bool

/-- One iteration of the elimination loop, src/linalg/dec.rs:540-552. Line 551 adds to `a[[i, m]]`. -/
def hesRow (n igh m : Nat) (x : F) (st : HesSt F) (i : Nat) : HesSt F :=
  if st.ret then st else
  let mm1 := m - 1
  let y := st.a i mm1
  if Fl.eq y 0.0 then { st with ret := true } else
  let y := y / x
  let a := set2 st.a i mm1 y
  let a := forRange m n a fun a j => set2 a i j (a i j - y * a m j)
  let a := forRange 0 igh a fun a j => set2 a i m (a i m + y * a j i)
  { st with a := a }

/-- One iteration of the outer loop, src/linalg/dec.rs:512-554. -/
def hesStep (n igh : Nat) (st : HesSt F) (m : Nat) : HesSt F :=
  if st.ret then st else
  let mm1 := m - 1
  let p := forRange m igh ((0.0 : F), m) fun p j =>
    if Fl.gt (Fl.abs (st.a j mm1)) (Fl.abs p.1) then (st.a j mm1, j) else p
  let x := p.1
  let ii := p.2
  let inter := set1 st.inter m (ii : Int)
  let a := if ii ≠ m then
      let a := forRange mm1 n st.a fun a j => set2 (set2 a ii j (a m j)) m j (a ii j)
      forRange 0 igh a fun a j => set2 (set2 a j ii (a j m)) j m (a j ii)
    else st.a
  let st := { st with a := a, inter := inter }
  if !Fl.eq x 0.0 then forRange (m + 1) igh st (hesRow n igh m x) else st

/-- `elmhes`, src/linalg/dec.rs:500-555. Line 507 computes `igh - 2`. -/
def elmhes (n low igh : Nat) (a : NMat F) (inter : Nat → Int) : Res (NMat F × (Nat → Int)) :=
  if igh < 2 then .panic else
  let la := igh - 2
  let kp1 := low + 1
  if la < kp1 then .ok (a, inter) else
  let st := forRange kp1 (la + 1) { a := a, inter := inter, ret := false } (hesStep n igh)
  .ok (st.a, st.inter)

end Linalg
end Cyphus
