import Verif.Simd.Regs
/-
Zero point, narrowing and clamping when the SIMD kernels store a result.
-/
namespace Ruy.Simd

namespace Neon
/-- kernel_arm64.cc:601-643 (uint8): SQXTN to int16, SQADD of the zero point
(`dup v14.8h, v13.h[4]`: its low 16 bits), SQXTUN to uint8, UMAX and UMIN with the
low bytes of the clamp bounds (`ldrb`). -/
def storeU8 (x zp lo hi : Int) : Int :=
  min (max (sqxtun8 (sqadd16 (sqxtn16 x) (wrap16 zp))) (lo % 256)) (hi % 256)

/-- kernel_arm64.cc:728-770 (int8). -/
def storeS8 (x zp lo hi : Int) : Int :=
  min (max (sqxtn8 (sqadd16 (sqxtn16 x) (wrap16 zp))) (wrap8 lo)) (wrap8 hi)

/-- kernel_arm64.cc:855-897 (int16): SADDW of the zero point, SQXTN, SMAX, SMIN. -/
def storeS16 (x zp lo hi : Int) : Int :=
  min (max (sqxtn16 (saddw x (wrap16 zp))) (wrap16 lo)) (wrap16 hi)
end Neon

namespace X86
/-- kernel_avx2_fma.cc:555-572, 535-536 / kernel_avx512.cc:538-545 and the AVX
analogue: 32-bit minimum and maximum, then the low 8 or 16 bits are stored.  The
zero point has been added before (`apply`). -/
def clamp32 (x lo hi : Int) : Int := max (min x hi) lo
def storeS8 (x lo hi : Int) : Int := wrap8 (clamp32 x lo hi)
def storeU8 (x lo hi : Int) : Int := clamp32 x lo hi % 256
def storeS16 (x lo hi : Int) : Int := wrap16 (clamp32 x lo hi)
end X86

end Ruy.Simd
