import Verif.Model.Parent
/-!
# The files the privileged process touches

`parent_descr`, `parent_device` and `parent_device_id` of /repo/src/parent.c once more, this time with the paths they build and the calls they make.  `Model/Parent.lean`
asks its environment about interfaces; here the file system is asked about paths.  Modelled for Linux, as there.
-/

namespace Ladvd

/-- A call that takes a path. -/
inductive FsCall where
  | stat (path : Bytes)
  | readlink (path : Bytes)
  | read (path : Bytes)
  | write (path text : Bytes)
  deriving Repr, DecidableEq

/-- The file system: whether `stat` succeeds, what `readlink` yields, the contents of files that can be opened for reading, the result of opening a file for
writing and writing a text; and `pci_alloc`, with the answers of libpci.  Simplifications: the answers do not change while a request is served, and the files
libpci itself reads are left out. -/
structure Fs where
  stat : Bytes → Bool := fun _ => false
  link : Bytes → Option Bytes := fun _ => none
  file : Bytes → Option Bytes := fun _ => none
  write : Bytes → Bytes → Option Nat := fun _ _ => none
  pciAlloc : Bool := true

/-- `snprintf(path, SYSFS_PATH_MAX, SYSFS_CLASS_NET "/%s/" what, mreq->name)`, /repo/src/parent.c lines 64-69: at most 255 bytes. -/
def sysfsPath (name what : Bytes) : Bytes := (lit "/sys/class/net" ++ lit "/" ++ name ++ lit "/" ++ what).take 255

/-- `parent_descr`, /repo/src/parent.c lines 490-509: the buffer, the return value and the calls. -/
def descrFiles (fs : Fs) (set : Bool) (name buf : Bytes) : Res (Bytes × Nat × List FsCall) := do
  let buf ← wr buf 64 [0]
  let path := sysfsPath name (lit "ifalias")
  if !fs.stat path then pure (buf, 0, [.stat path])
  else if set then
    let text := cstr buf
    pure (buf, min ((fs.write path text).getD 0) text.length, [.stat path, .write path text])
  else do
    let (buf, n) ← readLine buf 64 (fs.file path)
    pure (buf, n, [.stat path, .read path])

/-- `parent_device`, /repo/src/parent.c lines 535-547. -/
def deviceFiles (fs : Fs) (name : Bytes) : Nat × List FsCall :=
  let path := sysfsPath name (lit "device")
  if fs.stat path then (1, [.stat path]) else (0, [.stat path])

/-- `parent_device_id`, /repo/src/parent.c lines 551-624; simplified as `parentDeviceId`. -/
def deviceIdFiles (fs : Fs) (pciName : Bytes → Bytes → Bytes) (name buf : Bytes) : Res (Bytes × Nat × List FsCall) :=
  let proc := lit "/proc/bus/pci"
  let sub := sysfsPath name (lit "device/subsystem")
  if !fs.stat proc then .ok (buf, 0, [.stat proc])
  else if !fs.pciAlloc then .ok (buf, 0, [.stat proc])
  else
    match fs.link sub with
    | none => .ok (buf, 0, [.stat proc, .readlink sub])
    | some target =>
      let target := target.take 255
      if ¬ (0x2f : UInt8) ∈ target then .ok (buf, 0, [.stat proc, .readlink sub])
      else if (lit "/usb").isSuffixOf target then do
        let p1 := sysfsPath name (lit "device/../manufacturer")
        let (vendor, n) ← readLine (List.replicate 32 0) 32 (fs.file p1)
        if n = 0 then pure (buf, 0, [.stat proc, .readlink sub, .read p1])
        else do
          let p2 := sysfsPath name (lit "device/../product")
          let (product, n) ← readLine (List.replicate 32 0) 32 (fs.file p2)
          if n = 0 then pure (buf, 0, [.stat proc, .readlink sub, .read p1, .read p2])
          else do
            let text := trimEnd (cstr product) ++ lit " (" ++ trimEnd (cstr vendor) ++ lit ")"
            let buf ← wr buf 0 (text.take 511 ++ [0])
            pure (buf, (cstr buf).length, [.stat proc, .readlink sub, .read p1, .read p2])
      else do
        let p1 := sysfsPath name (lit "device/vendor")
        let (vendor, n) ← readLine (List.replicate 16 0) 16 (fs.file p1)
        if n = 0 then pure (buf, 0, [.stat proc, .readlink sub, .read p1])
        else do
          let p2 := sysfsPath name (lit "device/device")
          let (device, n) ← readLine (List.replicate 16 0) 16 (fs.file p2)
          if n = 0 then pure (buf, 0, [.stat proc, .readlink sub, .read p1, .read p2])
          else do
            let text := cstr (pciName (cstr vendor) (cstr device))
            let buf ← wr (List.replicate 512 0) 0 (text.take 511 ++ [0])
            pure (buf, (cstr buf).length, [.stat proc, .readlink sub, .read p1, .read p2])

/-- What `Model/Parent.lean` asks its environment, answered from the file system. -/
def Fs.env (fs : Fs) (env : PEnv) : PEnv :=
  { env with
    alias := fun n => if fs.stat (sysfsPath n (lit "ifalias")) then some ((fs.file (sysfsPath n (lit "ifalias"))).getD []) else none
    aliasWrite := fun n text => fs.write (sysfsPath n (lit "ifalias")) text
    device := fun n => fs.stat (sysfsPath n (lit "device"))
    pci := fs.stat (lit "/proc/bus/pci") && fs.pciAlloc
    subsystem := fun n => fs.link (sysfsPath n (lit "device/subsystem"))
    devFile := fun n d => fs.file (sysfsPath n (match d with
      | .pciVendor => lit "device/vendor"
      | .pciDevice => lit "device/device"
      | .usbVendor => lit "device/../manufacturer"
      | .usbProduct => lit "device/../product")) }

/-- The `switch` of `parent_req`, /repo/src/parent.c lines 214-255, with the calls that take a path; the other operations make none. -/
def opFiles (c : Conf) (fs : Fs) (env : PEnv) (r : Req) (name : Bytes) (s : Parent) : Res (Parent × Bytes × Nat × List FsCall) :=
  if r.op = 2 then do
    let (buf, n, calls) ← descrFiles fs true name r.buf
    pure (if fs.stat (sysfsPath name (lit "ifalias")) then s.log (.aliasWrite name (cstr buf)) else s, buf, n, calls)
  else if r.op = 3 then do
    let (buf, n, calls) ← descrFiles fs false name r.buf
    pure (s.log (.aliasRead name), buf, n, calls)
  else if r.op = 4 then
    let (n, calls) := deviceFiles fs name
    .ok (s.log (.device name), r.buf, n, calls)
  else if r.op = 5 then do
    let (buf, n, calls) ← deviceIdFiles fs env.pciName name r.buf
    pure (s.log (.deviceId name), buf, n, calls)
  else do
    let (s, buf, n) ← parentOp c (fs.env env) r name s
    pure (s, buf, n, [])

/-- `parent_req`, /repo/src/parent.c lines 192-261, for the datagram `dg`, as `parentReq`, with the calls that take a path. -/
def reqFiles (c : Conf) (fs : Fs) (env : PEnv) (s : Parent) (dg : Bytes) : Res (Parent × Bytes × List FsCall) :=
  let (m, n) := recvInto REQ_MAX dg
  let r := reqOf m
  if n < REQ_MIN ∨ n ≠ reqLen r.len then .abort
  else
    match env.ifName r.index with
    | none => do
      let b ← reply { r with len := 0 }
      pure (s, b, [])
    | some name => do
      let nm ← wr r.name 0 (name ++ [0])
      if !parentCheck r then .abort
      else do
        let (s, buf, n, calls) ← opFiles c fs env r name s
        let b ← reply { r with name := nm, len := n, buf := buf }
        pure (s, b, calls)

end Ladvd
