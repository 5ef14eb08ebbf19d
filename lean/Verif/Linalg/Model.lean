import Verif.Arith
/-!
# Model of the dense solvers of `src/linalg`: `dec`, `sol`, `dech`, `solh`, `decc`, `solc`, `dechc`, `solhc`

Matrices and vectors are total functions on `Nat` indices; only indices below `n` are meaningful. For
`n >= 1` and arrays of the expected shape no access of these functions is out of bounds; `n = 0` makes
`n - 1` underflow, which is modelled as a panic in the decompositions (the solvers are only ever called
after a decomposition of the same size).
-/

namespace Cyphus
namespace Linalg

/-- `ArrayViewMut2<f64>`. -/
abbrev NMat (F : Type) := Nat → Nat → F
/-- `ArrayViewMut1<f64>`. -/
abbrev NVec (F : Type) := Nat → F

/-- `a[[i, j]] = x`. -/
def set2 {F : Type} (a : NMat F) (i j : Nat) (x : F) : NMat F :=
  fun i' j' => if i' = i ∧ j' = j then x else a i' j'

/-- `b[i] = x`. -/
def set1 {α : Type} (b : Nat → α) (i : Nat) (x : α) : Nat → α :=
  fun i' => if i' = i then x else b i'

/-- `for i in lo..hi { s = f(s, i) }`. -/
def forRange {σ : Type} (lo hi : Nat) (s : σ) (f : σ → Nat → σ) : σ :=
  (List.range' lo (hi - lo)).foldl f s

/-- State of a real decomposition: the matrix, the pivots and, once a `return` was executed in the loop,
the returned error code. -/
structure LuSt (F : Type) where
  a : NMat F
  ip : Nat → Int
  ret : Option Nat

/-- State of a complex decomposition. -/
structure LucSt (F : Type) where
  ar : NMat F
  ai : NMat F
  ip : Nat → Int
  ret : Option Nat

variable {F : Type} [Add F] [Sub F] [Mul F] [Div F] [Neg F] [OfScientific F] [Fl F]

/-- The pivot search, src/linalg/dec.rs:17-22 (`hi = n`) and 77-83 (`hi = na`). -/
def pivot (a : NMat F) (k hi : Nat) : Nat :=
  forRange (k + 1) hi k fun m i => if Fl.gt (Fl.abs (a i k)) (Fl.abs (a m k)) then i else m

/-- Interchange of the entries `m` and `k` of column `k` and of the sign in `ip[n-1]`,
src/linalg/dec.rs:23-29 and 84-90. -/
def swapPivot (n : Nat) (st : LuSt F) (k m : Nat) : LuSt F :=
  let ip := set1 st.ip k (m : Int)
  let t := st.a m k
  if m ≠ k then
    { st with ip := set1 ip (n - 1) (-(ip (n - 1)))
              a := set2 (set2 st.a m k (st.a k k)) k k t }
  else { st with ip := ip }

/-- `for i in lo..hi { a[[i, k]] *= -t }`, src/linalg/dec.rs:36-38 and 97-99. -/
def scaleCol (a : NMat F) (k lo hi : Nat) (t : F) : NMat F :=
  forRange lo hi a fun a i => set2 a i k (a i k * -t)

/-- One iteration of the column loop, src/linalg/dec.rs:39-48 and 100-109. -/
def elimCol (k m hi : Nat) (a : NMat F) (j : Nat) : NMat F :=
  let t := a m j
  let a := set2 a m j (a k j)
  let a := set2 a k j t
  if !Fl.eq t 0.0 then
    forRange (k + 1) hi a fun a i => set2 a i j (a i j + a i k * t)
  else a

/-- One iteration of the outer loop of `dec`, src/linalg/dec.rs:15-49. -/
def decBody (n : Nat) (st : LuSt F) (k : Nat) : LuSt F :=
  match st.ret with
  | some _ => st
  | none =>
    let m := pivot st.a k n
    let t := st.a m k
    let st := swapPivot n st k m
    if Fl.eq t 0.0 then { st with ip := set1 st.ip (n - 1) 0, ret := some k }
    else
      let t := 1.0 / t
      let a := scaleCol st.a k (k + 1) n t
      { st with a := forRange (k + 1) n a (elimCol k m n) }

/-- The end of `dec`, `dech`, src/linalg/dec.rs:51-56 and 112-117: final test of the last pivot and the
returned code. -/
def decEnd (n : Nat) (st : LuSt F) : LuSt F × Nat :=
  match st.ret with
  | some k => (st, k)
  | none =>
    if Fl.eq (st.a (n - 1) (n - 1)) 0.0 then ({ st with ip := set1 st.ip (n - 1) 0 }, n) else (st, 0)

/-- `dec`, src/linalg/dec.rs:10-57: the final matrix and pivots, and the returned code. -/
def dec (n : Nat) (a : NMat F) (ip : Nat → Int) : Res (LuSt F × Nat) :=
  if n = 0 then .panic else
  let st : LuSt F := { a := a, ip := set1 ip (n - 1) 1, ret := none }
  .ok (decEnd n (if n ≠ 1 then forRange 0 (n - 1) st (decBody n) else st))

/-- One iteration of the outer loop of `dech`, src/linalg/dec.rs:75-110. -/
def dechBody (n lb : Nat) (st : LuSt F) (k : Nat) : LuSt F :=
  match st.ret with
  | some _ => st
  | none =>
    let na := min n (lb + k + 1)
    let m := pivot st.a k na
    let t := st.a m k
    let st := swapPivot n st k m
    if Fl.eq t 0.0 then { st with ip := set1 st.ip (n - 1) 0, ret := some k }
    else
      let t := 1.0 / t
      let a := scaleCol st.a k (k + 1) n t
      { st with a := forRange (k + 1) n a (elimCol k m na) }

/-- `dech`, src/linalg/dec.rs:65-118. -/
def dech (n : Nat) (a : NMat F) (lb : Nat) (ip : Nat → Int) : Res (LuSt F × Nat) :=
  if n = 0 then .panic else
  let st : LuSt F := { a := a, ip := set1 ip (n - 1) 1, ret := none }
  .ok (decEnd n (if n ≠ 1 then forRange 0 (n - 1) st (dechBody n lb) else st))

/-- One iteration of the forward loop of `sol` (`hi = n`, src/linalg/sol.rs:9-18) and of `solh`
(`hi = na`, src/linalg/sol.rs:41-51). `ip[k] as usize` is `toNat` (pivots are never negative). -/
def fwdStep (a : NMat F) (ip : Nat → Int) (hi : Nat) (b : NVec F) (k : Nat) : NVec F :=
  let m := (ip k).toNat
  let t := b m
  let b := set1 b m (b k)
  let b := set1 b k t
  forRange (k + 1) hi b fun b i => set1 b i (b i + a i k * t)

/-- One iteration of the backward loop of `sol`, src/linalg/sol.rs:19-27, and `solh`, 52-60. -/
def backStep (a : NMat F) (n : Nat) (b : NVec F) (k : Nat) : NVec F :=
  let km1 := n - k - 2
  let kb := km1 + 1
  let b := set1 b kb (b kb / a kb kb)
  let t := -(b kb)
  forRange 0 (km1 + 1) b fun b i => set1 b i (b i + a i kb * t)

/-- `sol`, src/linalg/sol.rs:6-30. -/
def sol (n : Nat) (a : NMat F) (b : NVec F) (ip : Nat → Int) : NVec F :=
  let b :=
    if n ≠ 1 then
      let b := forRange 0 (n - 1) b (fwdStep a ip n)
      forRange 0 (n - 1) b (backStep a n)
    else b
  set1 b 0 (b 0 / a 0 0)

/-- `solh`, src/linalg/sol.rs:32-63. -/
def solh (n : Nat) (a : NMat F) (lb : Nat) (b : NVec F) (ip : Nat → Int) : NVec F :=
  let b :=
    if n ≠ 1 then
      let b := forRange 0 (n - 1) b fun b k => fwdStep a ip (min n (lb + k + 1)) b k
      forRange 0 (n - 1) b (backStep a n)
    else b
  set1 b 0 (b 0 / a 0 0)

/-- The complex pivot search, src/linalg/dec.rs:138-143 (`hi = n`) and 228-234 (`hi = na`). -/
def pivotc (ar ai : NMat F) (k hi : Nat) : Nat :=
  forRange (k + 1) hi k fun m i =>
    if Fl.gt (Fl.abs (ar i k) + Fl.abs (ai i k)) (Fl.abs (ar m k) + Fl.abs (ai m k)) then i else m

/-- Interchange of the entries `m` and `k` of column `k`, src/linalg/dec.rs:144-153 and 235-244. -/
def swapPivotc (n : Nat) (st : LucSt F) (k m : Nat) : LucSt F :=
  let ip := set1 st.ip k (m : Int)
  let tr := st.ar m k
  let ti := st.ai m k
  if m ≠ k then
    { st with ip := set1 ip (n - 1) (-(ip (n - 1)))
              ar := set2 (set2 st.ar m k (st.ar k k)) k k tr
              ai := set2 (set2 st.ai m k (st.ai k k)) k k ti }
  else { st with ip := ip }

/-- The scaling loop, src/linalg/dec.rs:162-167 (`hi = n`) and 253-258 (`hi = na`). -/
def scaleColc (p : NMat F × NMat F) (k lo hi : Nat) (tr ti : F) : NMat F × NMat F :=
  forRange lo hi p fun p i =>
    let prodr := p.1 i k * tr - p.2 i k * ti
    let prodi := p.2 i k * tr + p.1 i k * ti
    (set2 p.1 i k (-prodr), set2 p.2 i k (-prodi))

/-- One iteration of the complex column loop, src/linalg/dec.rs:168-198 and 259-289. -/
def elimColc (k m hi : Nat) (p : NMat F × NMat F) (j : Nat) : NMat F × NMat F :=
  let tr := p.1 m j
  let ti := p.2 m j
  let ar := set2 (set2 p.1 m j (p.1 k j)) k j tr
  let ai := set2 (set2 p.2 m j (p.2 k j)) k j ti
  if Fl.eq (Fl.abs tr + Fl.abs ti) 0.0 then (ar, ai)
  else if Fl.eq ti 0.0 then
    forRange (k + 1) hi (ar, ai) fun p i =>
      let prodr := p.1 i k * tr
      let prodi := p.2 i k * tr
      (set2 p.1 i j (p.1 i j + prodr), set2 p.2 i j (p.2 i j + prodi))
  else if Fl.eq tr 0.0 then
    forRange (k + 1) hi (ar, ai) fun p i =>
      let prodr := -(p.2 i k) * ti
      let prodi := p.1 i k * ti
      (set2 p.1 i j (p.1 i j + prodr), set2 p.2 i j (p.2 i j + prodi))
  else
    forRange (k + 1) hi (ar, ai) fun p i =>
      let prodr := p.1 i k * tr - p.2 i k * ti
      let prodi := p.2 i k * tr + p.1 i k * ti
      (set2 p.1 i j (p.1 i j + prodr), set2 p.2 i j (p.2 i j + prodi))

/-- One iteration of the outer loop of `decc` (`hi k = n`, src/linalg/dec.rs:136-199) and of `dechc`
(`hi k = min n (lb + k + 1)`, src/linalg/dec.rs:226-290). -/
def deccBody (n : Nat) (hi : Nat → Nat) (st : LucSt F) (k : Nat) : LucSt F :=
  match st.ret with
  | some _ => st
  | none =>
    let m := pivotc st.ar st.ai k (hi k)
    let tr := st.ar m k
    let ti := st.ai m k
    let st := swapPivotc n st k m
    if Fl.eq (Fl.abs tr + Fl.abs ti) 0.0 then
      { st with ip := set1 st.ip (n - 1) 0, ret := some k }
    else
      let den := tr * tr + ti * ti
      let tr := tr / den
      let ti := -ti / den
      let p := scaleColc (st.ar, st.ai) k (k + 1) (hi k) tr ti
      let p := forRange (k + 1) n p (elimColc k m (hi k))
      { st with ar := p.1, ai := p.2 }

/-- The end of `decc` and `dechc`, src/linalg/dec.rs:201-206 and 292-297. -/
def deccEnd (n : Nat) (st : LucSt F) : LucSt F × Nat :=
  match st.ret with
  | some k => (st, k)
  | none =>
    if Fl.eq (Fl.abs (st.ar (n - 1) (n - 1)) + Fl.abs (st.ai (n - 1) (n - 1))) 0.0 then
      ({ st with ip := set1 st.ip (n - 1) 0 }, n)
    else (st, 0)

/-- `decc`, src/linalg/dec.rs:126-207. -/
def decc (n : Nat) (ar ai : NMat F) (ip : Nat → Int) : Res (LucSt F × Nat) :=
  if n = 0 then .panic else
  let st : LucSt F := { ar := ar, ai := ai, ip := set1 ip (n - 1) 1, ret := none }
  .ok (deccEnd n (if n ≠ 1 then forRange 0 (n - 1) st (deccBody n fun _ => n) else st))

/-- `dechc`, src/linalg/dec.rs:215-298. -/
def dechc (n : Nat) (ar ai : NMat F) (lb : Nat) (ip : Nat → Int) : Res (LucSt F × Nat) :=
  if n = 0 then .panic else
  let st : LucSt F := { ar := ar, ai := ai, ip := set1 ip (n - 1) 1, ret := none }
  .ok (deccEnd n (if n ≠ 1 ∧ lb ≠ 0 then
    forRange 0 (n - 1) st (deccBody n fun k => min n (lb + k + 1)) else st))

/-- One iteration of the forward loop of `solc` (`hi = n`, src/linalg/sol.rs:75-90) and of `solhc`
(`hi = min n (lb + k + 1)`, src/linalg/sol.rs:128-143). -/
def fwdStepc (ar ai : NMat F) (ip : Nat → Int) (hi : Nat) (b : NVec F × NVec F) (k : Nat) :
    NVec F × NVec F :=
  let m := (ip k).toNat
  let tr := b.1 m
  let ti := b.2 m
  let br := set1 (set1 b.1 m (b.1 k)) k tr
  let bi := set1 (set1 b.2 m (b.2 k)) k ti
  forRange (k + 1) hi (br, bi) fun b i =>
    let prodr := ar i k * tr - ai i k * ti
    let prodi := ai i k * tr + ar i k * ti
    (set1 b.1 i (b.1 i + prodr), set1 b.2 i (b.2 i + prodi))

/-- Complex division of entry `kb` by the diagonal, src/linalg/sol.rs:94-98 and 109-113 (and 148-152,
163-167). -/
def divDiagc (ar ai : NMat F) (b : NVec F × NVec F) (kb : Nat) : NVec F × NVec F :=
  let den := ar kb kb * ar kb kb + ai kb kb * ai kb kb
  let prodr := b.1 kb * ar kb kb + b.2 kb * ai kb kb
  let prodi := b.2 kb * ar kb kb - b.1 kb * ai kb kb
  (set1 b.1 kb (prodr / den), set1 b.2 kb (prodi / den))

/-- One iteration of the backward loop of `solc` (`hi = km1 + 1`, src/linalg/sol.rs:91-107) and of
`solhc` (`hi = km1`, src/linalg/sol.rs:145-161). -/
def backStepc (ar ai : NMat F) (hi kb : Nat) (b : NVec F × NVec F) : NVec F × NVec F :=
  let b := divDiagc ar ai b kb
  let tr := -(b.1 kb)
  let ti := -(b.2 kb)
  forRange 0 hi b fun b i =>
    let prodr := ar i kb * tr - ai i kb * ti
    let prodi := ai i kb * tr + ar i kb * ti
    (set1 b.1 i (b.1 i + prodr), set1 b.2 i (b.2 i + prodi))

/-- `solc`, src/linalg/sol.rs:65-114. -/
def solc (n : Nat) (ar ai : NMat F) (b : NVec F × NVec F) (ip : Nat → Int) : NVec F × NVec F :=
  let b :=
    if n ≠ 1 then
      let b := forRange 0 (n - 1) b (fwdStepc ar ai ip n)
      forRange 0 (n - 1) b fun b k =>
        let km1 := n - k - 2
        backStepc ar ai (km1 + 1) (km1 + 1) b
    else b
  divDiagc ar ai b 0

/-- `solhc`, src/linalg/sol.rs:116-168. The backward loop runs over `0..km1` (line 155), one row less
than in `solc`. -/
def solhc (n : Nat) (ar ai : NMat F) (lb : Nat) (b : NVec F × NVec F) (ip : Nat → Int) :
    NVec F × NVec F :=
  let b :=
    if n ≠ 1 then
      let b :=
        if lb ≠ 0 then
          forRange 0 (n - 1) b fun b k => fwdStepc ar ai ip (min n (lb + k + 1)) b k
        else b
      forRange 0 (n - 1) b fun b k =>
        let km1 := n - k - 2
        backStepc ar ai km1 (km1 + 1) b
    else b
  divDiagc ar ai b 0

end Linalg
end Cyphus
