/-!
Error codes of libpulp, include/error_common.h:38-72, as the integers they are in C.
-/

namespace Verif

/-- `ulp_error_t`, include/error_common.h:28. -/
abbrev Err := Nat

def ENONE : Err := 0
def EUNKNOWN : Err := 256
def EBUILDID : Err := 257
def ETARGETHOOK : Err := 258
def ENODEBUGTAG : Err := 259
def ENOLINKMAP : Err := 260
def ENOPHDR : Err := 261
def ENOPENTRY : Err := 262
def ENOLIBPULP : Err := 263
def ETHRDATTACH : Err := 264
def ETHRDDETTACH : Err := 265
def EINVALIDULP : Err := 266
def ENOOLDFUNC : Err := 267
def ENONEWFUNC : Err := 268
def ENOMETA : Err := 269
def ESTATE : Err := 270
def ENOSTATE : Err := 271
def ENOTAPPLIED : Err := 272
def EDEPEND : Err := 273
def ENOADDRESS : Err := 274
def EAPPLIED : Err := 275
def ENOTARGETLIB : Err := 276
def EHOOKNOTRUN : Err := 277
def ENOPATCHABLE : Err := 278
def EWILDNOMATCH : Err := 279
def EUSRBLOCKED : Err := 280
def EOLDLIBPULP : Err := 281
def EINITFAIL : Err := 282
def MPROTFAIL : Err := 283
def ENOPATCH : Err := 284
def EINSNQ : Err := 285
def EOLDULP : Err := 286
def EDLOPEN : Err := 287
def ENOLIBDL : Err := 288
def ENOLIBC : Err := 289

/-- Linux errno values used by libpulp (asm-generic/errno-base.h, errno.h). -/
def EPERM : Err := 1
def ENOENT : Err := 2
def ESRCH : Err := 3
def EAGAIN : Err := 11
def ENOMEM : Err := 12
def EBUSY : Err := 16
def EINVAL : Err := 22
def ETIME : Err := 62
def EOVERFLOW : Err := 75

end Verif
