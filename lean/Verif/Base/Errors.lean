import Mathlib.Data.Int.Notation

/-! # Status codes, include/l1c.h:367-388 -/

namespace L1c

def L1C_SUCCESS : Int := 0
def L1C_INFEASIBLE_START : Int := 2
def L1C_OUT_OF_MEMORY : Int := 8
def L1C_DCT_INIT_FAILURE : Int := 32
def L1C_FILE_READ_FAILURE : Int := 128
def L1C_CGSOLVE_FAILURE : Int := 512
def L1C_INVALID_ARGUMENT : Int := 2048
def L1C_INCONSISTENT_ARGUMENTS : Int := 8192

end L1c
