import Mathlib.Algebra.Order.Field.Basic

/-!
# The smoothing kernels of the visualisation

With exact arithmetic in an ordered field; single and double precision versions have the same formula.
-/

namespace Verif.Kernel

variable {K : Type} [Field K] [LinearOrder K]

/-- `max(one_minus_ratio_4 * (1.0 + 4.0 * ratio), 0.0)` where `ratio < 1` (`projection_backends/kernels.py` 43-52). -/
def profile (ratio : K) : K :=
  max ((1 - ratio) * (1 - ratio) * ((1 - ratio) * (1 - ratio)) * (1 + 4 * ratio)) 0

/-- `kernel_constant = 2.22817109` (`kernels.py` 38 and 86, `gpu.py` 44). -/
def constant2 : K := 222817109 / 100000000

/-- `kernel_gamma` of the projections (`kernels.py` 7, `gpu.py` 11). -/
def gamma2 : K := 1897367 / 1000000

/-- `kernel_single_precision`, `kernel_double_precision` and the kernel of the GPU (`kernels.py` 38-56 and 86-104,
`gpu.py` 44-62). -/
def projection (r H : K) : K :=
  let ratio := r * (1 / H)
  if ratio < 1 then profile ratio * (constant2 * (1 / H) * (1 / H)) else 0

/-- `kernel_constant = 21.0 * 0.31830988618379067154 / 2.0` (`slice_backends/sph.py` 9). -/
def constant3 : K := 21 * (31830988618379067154 / 100000000000000000000) / 2

/-- `kernel_gamma` of slices and renders (`slice_backends/sph.py` 8). -/
def gamma3 : K := 1936492 / 1000000

/-- `kernel` of slices and voxel renders (`slice_backends/sph.py` 38-53). -/
def volume (r H : K) : K :=
  let ratio := r * (1 / H)
  if ratio < 1 then profile ratio * (constant3 * (1 / H) * (1 / H) * (1 / H)) else 0

end Verif.Kernel
