import Verif.MovingMedian
import Mathlib.Analysis.SpecialFunctions.Trigonometric.Basic
import Mathlib.Analysis.SpecialFunctions.Complex.Arg
import Mathlib.Analysis.SpecialFunctions.Log.Basic
/-!
# Model of the Fourier transforms in `src/common/FFT.cpp`

`D_Builtin` (the default when no FFT library is compiled in) and `D_DFT` (the
fallback for sizes that no other implementation supports), with `pickImplementation`
for a build with these two only.

Arrays are lists; `none` is an access outside an array, or a loop that never ends.
Samples are real numbers and arithmetic is exact: `float` and `double` rounding, and with
it the difference between the `float` and the `double` variant of a function, is not
modelled.  `sin`, `cos`, `sqrt`, `log` are the real functions, `atan2(y, x)` is the
argument of `x + iy` (so `-0.0` is not distinguished from `0.0`).
-/
namespace Verif.FFT
open Verif.MovingMedian (setAt)

noncomputable section

/-- `for (i = 0; i < n; ++i)`. -/
def times {S : Type} : (n : Nat) → (Nat → S → Option S) → S → Option S
  | 0, _, s => some s
  | n + 1, body, s => (times n body s).bind (body n)

/-- `for (; i <= limit; i <<= 1)`; `none` if it is still going after `fuel` rounds. -/
def doubling {S : Type} (limit : Nat) (body : Nat → S → Option S) :
    (fuel i : Nat) → S → Option S
  | 0, _, _ => none
  | fuel + 1, i, s =>
    if i ≤ limit then (body i s).bind (doubling limit body fuel (2 * i)) else some s

/-- `for (; i < n; i += step)`; `none` if it is still going after `fuel` rounds. -/
def striding {S : Type} (n step : Nat) (body : Nat → S → Option S) :
    (fuel i : Nat) → S → Option S
  | 0, _, _ => none
  | fuel + 1, i, s =>
    if i < n then (body i s).bind (striding n step body fuel (i + step)) else some s

/-- The members of `D_Builtin`, FFT.cpp:2103-2115. -/
structure Builtin where
  size : Nat
  half : Nat
  table : List Nat
  sincos : List ℝ
  sincosR : List ℝ
  vr : List ℝ
  vi : List ℝ
  a : List ℝ
  b : List ℝ
  c : List ℝ
  d : List ℝ

/-- `m_blockTableSize`, FFT.cpp:1953. -/
def blockTableSize : Nat := 16

/-- `m_maxTabledBlock`, FFT.cpp:1954. -/
def maxTabledBlock : Nat := 1 <<< blockTableSize

/-- FFT.cpp:2129-2134: the number of the lowest set bit.  A shift of an `int` by more than
31 is undefined. -/
def lowestBit (n : Nat) : (fuel i : Nat) → Option Nat
  | 0, _ => none
  | fuel + 1, i => if n &&& (1 <<< i) ≠ 0 then some i else lowestBit n fuel (i + 1)

/-- FFT.cpp:2138-2141: the bits of `m` in reverse order, behind those of `k`. -/
def reversal : (bits k m : Nat) → Nat
  | 0, k, _ => k
  | bits + 1, k, m => reversal bits ((k <<< 1) ||| (m &&& 1)) (m >>> 1)

/-- FFT.cpp:2136-2143. -/
def fillTable (bits n : Nat) (table : List Nat) : Option (List Nat) :=
  times n (fun i table => setAt table i (reversal bits 0 i)) table

/-- FFT.cpp:2148-2152: the four entries for one block size. -/
def sincosEntry (i : Nat) (s : Nat × List ℝ) : Option (Nat × List ℝ) := do
  let phase : ℝ := 2 * Real.pi / i
  let t ← setAt s.2 s.1 (Real.sin phase)
  let t ← setAt t (s.1 + 1) (Real.sin (2 * phase))
  let t ← setAt t (s.1 + 2) (Real.cos phase)
  let t ← setAt t (s.1 + 3) (Real.cos (2 * phase))
  some (s.1 + 4, t)

/-- FFT.cpp:2146-2153. -/
def fillSincos (table : List ℝ) : Option (Nat × List ℝ) :=
  doubling maxTabledBlock sincosEntry (blockTableSize + 1) 2 (0, table)

/-- FFT.cpp:2158-2160. -/
def sincosREntry (half i : Nat) (s : Nat × List ℝ) : Option (Nat × List ℝ) := do
  let phase : ℝ := Real.pi * (((i + 1 : Nat) : ℝ) / half + 0.5)
  let t ← setAt s.2 s.1 (Real.sin phase)
  let t ← setAt t (s.1 + 1) (Real.cos phase)
  some (s.1 + 2, t)

/-- FFT.cpp:2156-2161. -/
def fillSincosR (half : Nat) (table : List ℝ) : Option (Nat × List ℝ) :=
  times (half / 2) (sincosREntry half) (0, table)

/-- The constructor with `makeTables`, FFT.cpp:1950-1970 and 2119-2162. -/
def make (size : Nat) : Option Builtin := do
  let half := size / 2
  let bits ← lowestBit half 31 0
  let table ← fillTable bits half (List.replicate half 0)
  let (_, sincos) ← fillSincos (List.replicate (blockTableSize * 4) 0)
  let (_, sincosR) ← fillSincosR half (List.replicate half 0)
  some {
    size := size, half := half, table := table, sincos := sincos, sincosR := sincosR,
    vr := List.replicate half 0, vi := List.replicate half 0,
    a := List.replicate (half + 1) 0, b := List.replicate (half + 1) 0,
    c := List.replicate (half + 1) 0, d := List.replicate (half + 1) 0 }

/-- FFT.cpp:2237-2241, one round. -/
def scatterOne (table : List Nat) (ri ii : List ℝ) (i : Nat) (s : List ℝ × List ℝ) :
    Option (List ℝ × List ℝ) := do
  let j ← table[i]?
  let x ← ri[i]?
  let ro ← setAt s.1 j x
  let y ← ii[i]?
  let io ← setAt s.2 j y
  some (ro, io)

/-- The variables of the inner loop of `transformComplex`: `ar[1]`, `ar[2]`, `ai[1]`,
`ai[2]`, `j`, `ro`, `io`. -/
structure Spin where
  ar1 : ℝ
  ar2 : ℝ
  ai1 : ℝ
  ai2 : ℝ
  j : Nat
  ro : List ℝ
  io : List ℝ

/-- FFT.cpp:2277-2298, one round. -/
def butterfly (w : ℝ) (blockEnd : Nat) (_m : Nat) (s : Spin) : Option Spin := do
  let ar0 := w * s.ar1 - s.ar2
  let ai0 := w * s.ai1 - s.ai2
  let k := s.j + blockEnd
  let rok ← s.ro[k]?
  let iok ← s.io[k]?
  let tr := ar0 * rok - ai0 * iok
  let ti := ar0 * iok + ai0 * rok
  let roj ← s.ro[s.j]?
  let ro ← setAt s.ro k (roj - tr)
  let ioj ← s.io[s.j]?
  let io ← setAt s.io k (ioj - ti)
  let roj ← ro[s.j]?
  let ro ← setAt ro s.j (roj + tr)
  let ioj ← io[s.j]?
  let io ← setAt io s.j (ioj + ti)
  some { ar1 := ar0, ar2 := s.ar1, ai1 := ai0, ai2 := s.ai1, j := s.j + 1, ro := ro, io := io }

/-- FFT.cpp:2269-2298: one block, from `i` on. -/
def block (cm1 cm2 sm1 sm2 : ℝ) (blockEnd i : Nat) (s : List ℝ × List ℝ) :
    Option (List ℝ × List ℝ) :=
  (times blockEnd (butterfly (2 * cm1) blockEnd)
    { ar1 := cm1, ar2 := cm2, ai1 := sm1, ai2 := sm2, j := i, ro := s.1, io := s.2 }).map
    fun s => (s.ro, s.io)

/-- FFT.cpp:2249-2262: `sm1`, `sm2`, `cm1`, `cm2` and the next `ix`. -/
def factors (sincos : List ℝ) (ifactor : ℝ) (blockSize ix : Nat) :
    Option (ℝ × ℝ × ℝ × ℝ × Nat) :=
  if blockSize ≤ maxTabledBlock then do
    let s1 ← sincos[ix]?
    let s2 ← sincos[ix + 1]?
    let c1 ← sincos[ix + 2]?
    let c2 ← sincos[ix + 3]?
    some (ifactor * s1, ifactor * s2, c1, c2, ix + 4)
  else
    let phase : ℝ := 2 * Real.pi / blockSize
    some (ifactor * Real.sin phase, ifactor * Real.sin (2 * phase),
      Real.cos phase, Real.cos (2 * phase), ix)

/-- The variables of the outer loop of `transformComplex`: `ix`, `blockEnd`, `ro`, `io`. -/
structure Pass where
  ix : Nat
  blockEnd : Nat
  ro : List ℝ
  io : List ℝ

/-- FFT.cpp:2249-2301: all blocks of one size. -/
def pass (sincos : List ℝ) (ifactor : ℝ) (n blockSize : Nat) (s : Pass) : Option Pass := do
  let (sm1, sm2, cm1, cm2, ix) ← factors sincos ifactor blockSize s.ix
  let (ro, io) ← striding n blockSize (block cm1 cm2 sm1 sm2 s.blockEnd) (n + 1) 0 (s.ro, s.io)
  some { ix := ix, blockEnd := blockSize, ro := ro, io := io }

/-- `transformComplex`, FFT.cpp:2227-2303. -/
def transformComplex (o : Builtin) (ri ii ro io : List ℝ) (inverse : Bool) :
    Option (List ℝ × List ℝ) := do
  let (ro, io) ← times o.half (scatterOne o.table ri ii) (ro, io)
  let s ← doubling o.half (pass o.sincos (if inverse then -1 else 1) o.half) (o.half + 1) 2
    { ix := 0, blockEnd := 1, ro := ro, io := io }
  some (s.ro, s.io)

/-- FFT.cpp:2170-2173, one round. -/
def splitOne (ri : List ℝ) (i : Nat) (s : List ℝ × List ℝ) : Option (List ℝ × List ℝ) := do
  let x ← ri[i * 2]?
  let a ← setAt s.1 i x
  let y ← ri[i * 2 + 1]?
  let b ← setAt s.2 i y
  some (a, b)

/-- FFT.cpp:2179-2193, one round; the state is `ix`, `ro`, `io`. -/
def twistF (half : Nat) (sincosR vr vi : List ℝ) (i : Nat) (st : Nat × List ℝ × List ℝ) :
    Option (Nat × List ℝ × List ℝ) := do
  let s' ← sincosR[st.1]?
  let s := -s'
  let c ← sincosR[st.1 + 1]?
  let k := i + 1
  let r0 ← vr[k]?
  let i0 ← vi[k]?
  let r1 ← vr[half - k]?
  let i1' ← vi[half - k]?
  let i1 := -i1'
  let twR := (r0 - r1) * c - (i0 - i1) * s
  let twI := (r0 - r1) * s + (i0 - i1) * c
  let ro ← setAt st.2.1 k ((r0 + r1 + twR) * 0.5)
  let ro ← setAt ro (half - k) ((r0 + r1 - twR) * 0.5)
  let io ← setAt st.2.2 k ((i0 + i1 + twI) * 0.5)
  let io ← setAt io (half - k) ((twI - i0 - i1) * 0.5)
  some (st.1 + 2, ro, io)

/-- `transformF`, FFT.cpp:2166-2194. -/
def transformF (o : Builtin) (ri ro io : List ℝ) :
    Option (Builtin × List ℝ × List ℝ) := do
  let halfhalf := o.half / 2
  let (a, b) ← times o.half (splitOne ri) (o.a, o.b)
  let (vr, vi) ← transformComplex o a b o.vr o.vi false
  let vr0 ← vr[0]?
  let vi0 ← vi[0]?
  let ro ← setAt ro 0 (vr0 + vi0)
  let ro ← setAt ro o.half (vr0 - vi0)
  let io ← setAt io o.half 0
  let io ← setAt io 0 0
  let (_, ro, io) ← times halfhalf (twistF o.half o.sincosR vr vi) (0, ro, io)
  some ({ o with a := a, b := b, vr := vr, vi := vi }, ro, io)

/-- FFT.cpp:2205-2219, one round; the state is `ix`, `m_vr`, `m_vi`. -/
def twistI (half : Nat) (sincosR ri ii : List ℝ) (i : Nat) (st : Nat × List ℝ × List ℝ) :
    Option (Nat × List ℝ × List ℝ) := do
  let s ← sincosR[st.1]?
  let c ← sincosR[st.1 + 1]?
  let k := i + 1
  let r0 ← ri[k]?
  let r1 ← ri[half - k]?
  let i0 ← ii[k]?
  let i1' ← ii[half - k]?
  let i1 := -i1'
  let twR := (r0 - r1) * c - (i0 - i1) * s
  let twI := (r0 - r1) * s + (i0 - i1) * c
  let vr ← setAt st.2.1 k (r0 + r1 + twR)
  let vr ← setAt vr (half - k) (r0 + r1 - twR)
  let vi ← setAt st.2.2 k (i0 + i1 + twI)
  let vi ← setAt vi (half - k) (twI - i0 - i1)
  some (st.1 + 2, vr, vi)

/-- FFT.cpp:2221-2224, one round. -/
def mergeOne (c d : List ℝ) (i : Nat) (ro : List ℝ) : Option (List ℝ) := do
  let x ← c[i]?
  let ro ← setAt ro (i * 2) x
  let y ← d[i]?
  setAt ro (i * 2 + 1) y

/-- `transformI`, FFT.cpp:2198-2225. -/
def transformI (o : Builtin) (ri ii ro : List ℝ) : Option (Builtin × List ℝ) := do
  let halfhalf := o.half / 2
  let ri0 ← ri[0]?
  let rih ← ri[o.half]?
  let vr ← setAt o.vr 0 (ri0 + rih)
  let vi ← setAt o.vi 0 (ri0 - rih)
  let (_, vr, vi) ← times halfhalf (twistI o.half o.sincosR ri ii) (0, vr, vi)
  let (c, d) ← transformComplex o vr vi o.c o.d true
  let ro ← times o.half (mergeOne c d) ro
  some ({ o with vr := vr, vi := vi, c := c, d := d }, ro)

/-- `v_cartesian_to_polar`, VectorOpsComplex.h:181-190 with `c_magphase`, 69-73, one round. -/
def toPolarOne (re im : List ℝ) (i : Nat) (s : List ℝ × List ℝ) :
    Option (List ℝ × List ℝ) := do
  let x ← re[i]?
  let y ← im[i]?
  let mag ← setAt s.1 i (Real.sqrt (x * x + y * y))
  let phase ← setAt s.2 i (Complex.arg ⟨x, y⟩)
  some (mag, phase)

/-- `v_polar_to_cartesian`, VectorOpsComplex.h:96-107 with `c_phasor`, 34-66, and the two
multiplications; the loops are taken together. -/
def toCartesianOne (mag phase : List ℝ) (i : Nat) (s : List ℝ × List ℝ) :
    Option (List ℝ × List ℝ) := do
  let g ← mag[i]?
  let p ← phase[i]?
  let re ← setAt s.1 i (Real.cos p * g)
  let im ← setAt s.2 i (Real.sin p * g)
  some (re, im)

/-- `v_cartesian_to_magnitudes`, VectorOpsComplex.h:248-256, one round. -/
def toMagnitudeOne (re im : List ℝ) (i : Nat) (mag : List ℝ) : Option (List ℝ) := do
  let x ← re[i]?
  let y ← im[i]?
  setAt mag i (Real.sqrt (x * x + y * y))

/-- A call to a `D_Builtin`, with the arrays it is to fill. -/
inductive Call where
  /-- `forward`, FFT.cpp:1996-1999. -/
  | forward (realIn realOut imagOut : List ℝ)
  /-- `forwardPolar`, FFT.cpp:2007-2011. -/
  | forwardPolar (realIn magOut phaseOut : List ℝ)
  /-- `forwardMagnitude`, FFT.cpp:2013-2017. -/
  | forwardMagnitude (realIn magOut : List ℝ)
  /-- `inverse`, FFT.cpp:2045-2048. -/
  | inverse (realIn imagIn realOut : List ℝ)
  /-- `inversePolar`, FFT.cpp:2056-2060. -/
  | inversePolar (magIn phaseIn realOut : List ℝ)
  /-- `inverseCepstral`, FFT.cpp:2062-2070. -/
  | inverseCepstral (magIn cepOut : List ℝ)

/-- `forwardPolar`, FFT.cpp:2007-2011 (2033-2037 for `float`). -/
def forwardPolar (o : Builtin) (x mag phase : List ℝ) : Option (Builtin × List ℝ × List ℝ) := do
  let (o, c, d) ← transformF o x o.c o.d
  let (mag, phase) ← times (o.half + 1) (toPolarOne c d) (mag, phase)
  some ({ o with c := c, d := d }, mag, phase)

/-- `forwardMagnitude`, FFT.cpp:2013-2017 (2039-2043 for `float`). -/
def forwardMagnitude (o : Builtin) (x mag : List ℝ) : Option (Builtin × List ℝ) := do
  let (o, c, d) ← transformF o x o.c o.d
  let mag ← times (o.half + 1) (toMagnitudeOne c d) mag
  some ({ o with c := c, d := d }, mag)

/-- `inversePolar`, FFT.cpp:2056-2060 (2086-2090 for `float`). -/
def inversePolar (o : Builtin) (mag phase ro : List ℝ) : Option (Builtin × List ℝ) := do
  let (a, b) ← times (o.half + 1) (toCartesianOne mag phase) (o.a, o.b)
  transformI { o with a := a, b := b } a b ro

/-- FFT.cpp:2064-2068, one round. -/
def logOne (mag : List ℝ) (i : Nat) (s : List ℝ × List ℝ) : Option (List ℝ × List ℝ) := do
  let g ← mag[i]?
  let a ← setAt s.1 i (Real.log (g + 0.000001))
  let b ← setAt s.2 i 0
  some (a, b)

/-- `inverseCepstral`, FFT.cpp:2062-2070 (2092-2100 for `float`). -/
def inverseCepstral (o : Builtin) (mag cep : List ℝ) : Option (Builtin × List ℝ) := do
  let (a, b) ← times (o.half + 1) (logOne mag) (o.a, o.b)
  transformI { o with a := a, b := b } a b cep

/-- The object after a call; the filled arrays. -/
def call (o : Builtin) : Call → Option (Builtin × List (List ℝ))
  | .forward x re im => (transformF o x re im).map fun (o, re, im) => (o, [re, im])
  | .forwardPolar x m p => (forwardPolar o x m p).map fun (o, m, p) => (o, [m, p])
  | .forwardMagnitude x m => (forwardMagnitude o x m).map fun (o, m) => (o, [m])
  | .inverse re im x => (transformI o re im x).map fun (o, x) => (o, [x])
  | .inversePolar m p x => (inversePolar o m p x).map fun (o, x) => (o, [x])
  | .inverseCepstral m x => (inverseCepstral o m x).map fun (o, x) => (o, [x])

/-- A sequence of calls. -/
def run (o : Builtin) : List Call → Option (Builtin × List (List (List ℝ)))
  | [] => some (o, [])
  | k :: ks => do
    let (o, out) ← call o k
    let (o, outs) ← run o ks
    some (o, out :: outs)

/-! ### The slow transform -/

/-- `m_cos` and `m_sin` of `D_DFT::DFT`, FFT.cpp:2320-2326. -/
def angle (size i j : Nat) : ℝ := ((i : ℝ) * j * Real.pi * 2) / size

/-- FFT.cpp:2340 and 2387: `re += x[j] * table[j]` from `j = 0` on. -/
def addUp (x : List ℝ) (table : Nat → ℝ) (size : Nat) (re : ℝ) : Option ℝ :=
  times size (fun j re => x[j]?.map fun v => re + v * table j) re

/-- FFT.cpp:2341 and 2388: `im -= x[j] * table[j]` from `j = 0` on. -/
def takeOff (x : List ℝ) (table : Nat → ℝ) (size : Nat) (im : ℝ) : Option ℝ :=
  times size (fun j im => x[j]?.map fun v => im - v * table j) im

/-- `D_DFT::DFT::forward`, FFT.cpp:2338-2344, one round. -/
def dftForwardOne (size : Nat) (x : List ℝ) (i : Nat) (s : List ℝ × List ℝ) :
    Option (List ℝ × List ℝ) := do
  let re ← addUp x (fun j => Real.cos (angle size i j)) size 0
  let im ← takeOff x (fun j => Real.sin (angle size i j)) size 0
  let ro ← setAt s.1 i re
  let io ← setAt s.2 i im
  some (ro, io)

/-- `D_DFT::DFT::forward`, FFT.cpp:2337-2345. -/
def dftForward (size : Nat) (x ro io : List ℝ) : Option (List ℝ × List ℝ) :=
  times (size / 2 + 1) (dftForwardOne size x) (ro, io)

/-- FFT.cpp:2375-2382: one entry of `m_tmp[0]` and `m_tmp[1]`, first loop for `i < m_bins`,
second loop for the rest; each entry is written once. -/
def mirrorOne (size : Nat) (re im : List ℝ) (i : Nat) (s : List ℝ × List ℝ) :
    Option (List ℝ × List ℝ) :=
  if i < size / 2 + 1 then do
    let x ← re[i]?
    let y ← im[i]?
    let t0 ← setAt s.1 i x
    let t1 ← setAt s.2 i y
    some (t0, t1)
  else do
    let x ← re[size - i]?
    let y ← im[size - i]?
    let t0 ← setAt s.1 i x
    let t1 ← setAt s.2 i (-y)
    some (t0, t1)

/-- FFT.cpp:2383-2390, one round. -/
def dftInverseOne (size : Nat) (t0 t1 : List ℝ) (i : Nat) (ro : List ℝ) :
    Option (List ℝ) := do
  let re ← addUp t0 (fun j => Real.cos (angle size i j)) size 0
  let re ← takeOff t1 (fun j => Real.sin (angle size i j)) size re
  setAt ro i re

/-- `D_DFT::DFT::inverse`, FFT.cpp:2374-2391; `m_tmp` is passed in and given back. -/
def dftInverse (size : Nat) (t0 t1 re im ro : List ℝ) :
    Option (List ℝ × List ℝ × List ℝ) := do
  let (t0, t1) ← times (max size (size / 2 + 1)) (mirrorOne size re im) (t0, t1)
  let ro ← times size (dftInverseOne size t0 t1) ro
  some (t0, t1, ro)

/-- `pickImplementation`, FFT.cpp:2593-2648, with `builtin` and `dft` compiled in:
`true` for `builtin`.  `default` is `defaultImplementation`: nothing, `builtin` (`some true`)
or `dft` (`some false`). -/
def pickBuiltin (default : Option Bool) (size : Nat) : Bool :=
  let isPowerOfTwo : Bool := (size &&& (size - 1)) == 0
  let isEven : Bool := (size &&& 1) == 0
  let preferred : Bool := !(!isPowerOfTwo || size < 4) && isEven
  match default with
  | some true => if !isPowerOfTwo || !isEven then preferred else true
  | some false => false
  | none => preferred

end

end Verif.FFT
