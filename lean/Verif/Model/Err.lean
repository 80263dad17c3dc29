/-! # Error codes and conversions -/
namespace Neco.Err

/-- Error codes, neco.h 360-378. -/
def OK : Int := 0
def ERROR : Int := -1
def INVAL : Int := -2
def PERM : Int := -3
def NOMEM : Int := -4
def EOF : Int := -5
def NOTFOUND : Int := -6
def NOSIGWATCH : Int := -7
def CLOSED : Int := -8
def EMPTY : Int := -9
def TIMEDOUT : Int := -10
def CANCELED : Int := -11
def BUSY : Int := -12
def NEGWAITGRP : Int := -13
def GAIERROR : Int := -14
def UNREADFAIL : Int := -15
def PARTIALWRITE : Int := -16
def NOTGENERATOR : Int := -17
def NOTSUSPENDED : Int := -18

/-- the errno values used, with their Linux numbers (asm-generic/errno*.h) -/
def sysEPERM : Int := 1
def sysENOMEM : Int := 12
def sysEINVAL : Int := 22
def sysETIMEDOUT : Int := 110
def sysECANCELED : Int := 125

/-- `neco_errconv_to_sys`, neco.c 5528-5549: new value of `errno` given the old one. -/
def toSys (err errno : Int) : Int :=
  if err = OK then 0
  else if err = INVAL then sysEINVAL
  else if err = PERM then sysEPERM
  else if err = NOMEM then sysENOMEM
  else if err = CANCELED then sysECANCELED
  else if err = TIMEDOUT then sysETIMEDOUT
  else errno

/-- `neco_errconv_from_sys`, neco.c 5551-5566. -/
def fromSys (errno : Int) : Int :=
  if errno = sysEINVAL then INVAL
  else if errno = sysEPERM then PERM
  else if errno = sysENOMEM then NOMEM
  else if errno = sysECANCELED then CANCELED
  else if errno = sysETIMEDOUT then TIMEDOUT
  else ERROR

/-- `neco_shortstrerror`, neco.c 5568-5608. -/
def shortStr (code : Int) : String :=
  if code = OK then "NECO_OK"
  else if code = ERROR then "NECO_ERROR"
  else if code = INVAL then "NECO_INVAL"
  else if code = PERM then "NECO_PERM"
  else if code = NOMEM then "NECO_NOMEM"
  else if code = NOTFOUND then "NECO_NOTFOUND"
  else if code = NOSIGWATCH then "NECO_NOSIGWATCH"
  else if code = CLOSED then "NECO_CLOSED"
  else if code = EMPTY then "NECO_EMPTY"
  else if code = TIMEDOUT then "NECO_TIMEDOUT"
  else if code = CANCELED then "NECO_CANCELED"
  else if code = BUSY then "NECO_BUSY"
  else if code = NEGWAITGRP then "NECO_NEGWAITGRP"
  else if code = GAIERROR then "NECO_GAIERROR"
  else if code = UNREADFAIL then "NECO_UNREADFAIL"
  else if code = PARTIALWRITE then "NECO_PARTIALWRITE"
  else if code = NOTGENERATOR then "NECO_NOTGENERATOR"
  else if code = NOTSUSPENDED then "NECO_NOTSUSPENDED"
  else "UNKNOWN"

/-- outcome of the guards run when a public function returns -/
structure Guarded where
  /-- the thread-local `lasterr` read by `neco_lasterr` -/
  lasterr : Int
  /-- the process was stopped by `panic` -/
  panicked : Bool
  /-- `coexit(true)` was called -/
  exited : Bool
deriving DecidableEq, Repr

/-- `error_guard` with `errhpnd`, neco.c 3424-3456. `panicOn` = `env_paniconerror`. -/
def errorGuard (ret errno : Int) (panicOn : Bool) : Guarded :=
  if ret < 0 then
    let le := if ret = -1 then fromSys errno else ret
    { lasterr := le, exited := false,
      panicked := panicOn && (decide (le = INVAL) || decide (le = PERM) || decide (le = NOMEM)) }
  else { lasterr := 0, panicked := false, exited := false }

/-- `async_error_guard`, neco.c 3458-3472. `async` = the coroutine's cancel type is
`NECO_CANCEL_ASYNC`. (When the process panicked nothing else happens.) -/
def asyncErrorGuard (ret errno : Int) (panicOn async : Bool) : Guarded :=
  let g := errorGuard ret errno panicOn
  if g.panicked then g
  else if g.lasterr = CANCELED ∧ async then { g with exited := true }
  else g

end Neco.Err
