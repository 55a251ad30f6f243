/-!
# Error codes and flag words used by the model (Linux values for the standard ones)
-/

namespace Ouro

/-- `EPERM` (errno.h) -/ def EPERM : Int := 1
/-- `EAGAIN` (errno.h) -/ def EAGAIN : Int := 11
/-- `ENOMEM` (errno.h) -/ def ENOMEM : Int := 12
/-- `EBADF` (errno.h) -/ def EBADF : Int := 9
/-- `EINVAL` (errno.h) -/ def EINVAL : Int := 22
/-- `EMSGSIZE` (errno.h) -/ def EMSGSIZE : Int := 90
/-- `ENOTSUP` (errno.h) -/ def ENOTSUP : Int := 95
/-- `ETIMEDOUT` (errno.h) -/ def ETIMEDOUT : Int := 110
/-- `EOWNERDEAD` (errno.h) -/ def EOWNERDEAD : Int := 130
/-- include/ouroboros/errno.h:28 -/ def ENOTALLOC : Int := 1000
/-- include/ouroboros/errno.h:29 -/ def EIPCPTYPE : Int := 1001
/-- include/ouroboros/errno.h:30 -/ def EIRMD : Int := 1002
/-- include/ouroboros/errno.h:31 -/ def EIPCP : Int := 1003
/-- include/ouroboros/errno.h:32 -/ def EIPCPSTATE : Int := 1004
/-- include/ouroboros/errno.h:33 -/ def EFLOWDOWN : Int := 1005
/-- include/ouroboros/errno.h:34 -/ def EFLOWPEER : Int := 1006
/-- include/ouroboros/errno.h:36 -/ def ENAME : Int := 1008

end Ouro
