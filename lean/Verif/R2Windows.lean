import Verif.R2Sizes
/-!
# The faster engine in real time: the windows that it has

R2Stretcher.cpp: what `configure` and `reconfigure` do with `m_windows` and `m_sincs`, in real time, and
StretcherChannelData.cpp: what the constructor and `setSizes` do with the map `ffts` of a channel (each channel has the same).  Windows and FFTs are known by their sizes.  The analysis and the synthesis window
are of the same size (R2Stretcher.cpp:508-514), so that one stands for both.  Left out: the window functions themselves (`R2Spectral`), and all else that is made anew
(the buffers of the channels, `R2Grown`).
-/
namespace Verif.R2.Windows

/-- The maps `m_windows` and `m_sincs` by their keys; what `m_awindow` and `m_swindow`, and what `m_afilter` points to (`none`: null); the sizes in use; and how often a window was made
after construction, with the message "WARNING: reconfigure(): window allocation required in realtime mode"; the keys of `ffts`; what `fft` points to; and how often an FFT was made after
construction. -/
structure Made where
  windows : List Nat
  sincs : List Nat
  window : Option Nat
  filter : Option Nat
  sizes : Sizes
  warnings : Nat
  ffts : List Nat
  fft : Option Nat
  later : Nat

/-- `m[k]` of a map of pointers: null if there is no such key. -/
def look (l : List Nat) (k : Nat) : Option Nat := if k ∈ l then some k else none

/-- R2Stretcher.cpp:609-618, StretcherChannelData.cpp:92-100: those of the sizes that are not there yet. -/
def fill : List Nat → List Nat → List Nat
  | [], l => l
  | n :: ns, l => fill ns (if n ∈ l then l else n :: l)

/-- R2Stretcher.cpp:561-625 `configure`, on construction (there are no windows yet).  Of real time only: `none` otherwise. -/
def create (p : Params) (timeRatio pitchScale : R3.Dbl) : Option Made := if p.realTime = false then none else do
  let base ← baseFftSize p
  let z ← calculateSizes p 0 timeRatio pitchScale
  let sizes := [base, base / 2, base * 2, z.fftSize, z.window]
  pure ⟨fill sizes [], fill sizes [], look (fill sizes []) z.window, look (fill sizes []) z.window, z, 0, fill sizes [],
    look (fill sizes []) z.fftSize, 0⟩

/-- StretcherChannelData.cpp:113-201 `setSizes`: the FFT.  Both ways of it do the same with the FFTs. -/
def setSizes (m : Made) (fftSize : Nat) : Made :=
  if fftSize ∈ m.ffts then { m with fft := look m.ffts fftSize }
  else { m with ffts := fftSize :: m.ffts, fft := look (fftSize :: m.ffts) fftSize, later := m.later + 1 }

/-- R2Stretcher.cpp:740-785 `reconfigure`.  The second check, for `m_sWindowSize`, finds what the first has made. -/
def reconfigure (p : Params) (m : Made) (duration : Nat) (timeRatio pitchScale : R3.Dbl) : Option Made := do
  let z ← calculateSizes p duration timeRatio pitchScale
  if z.window = m.sizes.window then pure { m with sizes := z }
  else if z.window ∈ m.windows then pure (setSizes { m with window := look m.windows z.window, filter := look m.sincs z.window, sizes := z } z.fftSize)
  else pure (setSizes { m with
    windows := z.window :: m.windows, sincs := z.window :: m.sincs, window := look (z.window :: m.windows) z.window, filter := look (z.window :: m.sincs) z.window,
    sizes := z, warnings := m.warnings + 1 } z.fftSize)

/-- A setting: the expected duration, the time ratio and the pitch scale with which the sizes are calculated again. -/
structure Setting where
  duration : Nat
  timeRatio : R3.Dbl
  pitchScale : R3.Dbl

/-- Any number of settings, one after the other. -/
def settings (p : Params) : List Setting → Made → Option Made
  | [], m => some m
  | x :: xs, m => (reconfigure p m x.duration x.timeRatio x.pitchScale).bind (settings p xs)

end Verif.R2.Windows
