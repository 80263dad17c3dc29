import Verif.Model.Err

/-! # The texts of the error codes

`neco_strerror`, neco.c 5613-5661. The texts of the system (`strerror`, `gai_strerror`) are parameters. The buffer
of the last case belongs to the thread and is overwritten by the next such call, which is not modelled. -/

namespace Neco.Text
open Neco.Err

/-- `EBUSY`, asm-generic/errno-base.h -/
def sysEBUSY : Int := 16
/-- `EAI_SYSTEM`, netdb.h -/
def EAI_SYSTEM : Int := -11

/-- `sizeof(udmsg)`, neco.c 5656 -/
def UDMSG : Nat := 32

/-- `snprintf(udmsg, sizeof(udmsg)-1, "Undefined error: %zd", errcode)`, neco.c 5657: at most one byte less than the
size it is given is written, and a zero byte -/
def undefText (code : Int) : String := String.ofList (("Undefined error: " ++ toString code).toList.take (UDMSG - 1 - 1))

/-- `neco_strerror`, neco.c 5613-5661; `sys` is `strerror`, `gai` is `gai_strerror`, `gaiErr` is `neco_gai_errno` -/
def strerror (sys gai : Int → String) (errno gaiErr code : Int) : String :=
  if code = OK then "Success"
  else if code = ERROR then sys errno
  else if code = INVAL then sys sysEINVAL
  else if code = PERM then sys sysEPERM
  else if code = NOMEM then sys sysENOMEM
  else if code = NOTFOUND then "No such coroutine"
  else if code = NOSIGWATCH then "Not watching on a signal"
  else if code = CLOSED then "Channel closed"
  else if code = EMPTY then "Channel empty"
  else if code = TIMEDOUT then sys sysETIMEDOUT
  else if code = CANCELED then sys sysECANCELED
  else if code = BUSY then sys sysEBUSY
  else if code = NEGWAITGRP then "Negative waitgroup counter"
  else if code = GAIERROR then (if gaiErr = EAI_SYSTEM then sys errno else gai gaiErr)
  else if code = UNREADFAIL then "Failed to unread byte"
  else if code = PARTIALWRITE then "Failed to write all bytes"
  else if code = NOTGENERATOR then "Coroutine is not a generator"
  else if code = NOTSUSPENDED then "Coroutine is not suspended"
  else undefText code

end Neco.Text
