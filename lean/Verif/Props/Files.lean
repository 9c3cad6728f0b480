import Verif.Spec.Files
import Verif.Lemmas.Parent
/-!
# C103: the privileged process touches only the files that belong to the interface asked about
-/

namespace Ladvd.Props

open Spec

theorem sysfsPath_eq {name what : Bytes} (hn : name.length ≤ 15) (hw : what.length ≤ 30) : sysfsPath name what = inDir name what := by
  unfold sysfsPath inDir
  have e : lit "/sys/class/net/" = lit "/sys/class/net" ++ lit "/" := by decide +kernel
  rw [e, List.take_of_length_le]
  have h1 : (lit "/sys/class/net").length = 14 := by decide +kernel
  have h2 : (lit "/").length = 1 := by decide +kernel
  simp only [List.length_append, h1, h2]
  omega

/-- The calls forgotten. -/
def forget {α β : Type} (x : Res (α × Nat × β)) : Res (α × Nat) := x.bind fun y => .ok (y.1, y.2.1)

theorem descr_same (fs : Fs) (env : PEnv) (set : Bool) (name buf : Bytes) : forget (descrFiles fs set name buf) = parentDescr (fs.env env) set name buf := by
  unfold forget descrFiles parentDescr
  cases hw : wr buf 64 [0] with
  | ok m =>
    simp only [Res.bind_eq, Res.bind_ok, Res.pure_eq, Fs.env]
    cases hs : fs.stat (sysfsPath name (lit "ifalias")) with
    | false => simp
    | true =>
      cases set with
      | true => simp [writeLine]
      | false =>
        simp only [Bool.not_true, Bool.false_eq_true, if_false, if_true]
        cases hf : fs.file (sysfsPath name (lit "ifalias")) with
        | none => simp [readLine]
        | some t =>
          simp only [Option.getD_some]
          cases readLine m 64 (some t) <;> rfl
  | _ => rfl

theorem deviceId_same (fs : Fs) (env : PEnv) (name buf : Bytes) :
    forget (deviceIdFiles fs env.pciName name buf) = parentDeviceId (fs.env env) name buf := by
  unfold forget deviceIdFiles parentDeviceId
  simp only [Fs.env]
  cases fs.stat (lit "/proc/bus/pci") with
  | false => simp
  | true =>
    cases fs.pciAlloc with
    | false => simp
    | true =>
      simp only [Bool.not_true, Bool.false_eq_true, if_false, Bool.and_self]
      cases fs.link (sysfsPath name (lit "device/subsystem")) with
      | none => rfl
      | some t =>
        dsimp only
        by_cases h1 : (0x2f : UInt8) ∈ t.take 255
        · rw [if_neg (not_not_intro h1), if_neg (not_not_intro h1)]
          cases h2 : (lit "/usb").isSuffixOf (t.take 255) with
          | true =>
            simp only [if_true, Res.bind_eq, Res.pure_eq]
            cases readLine (List.replicate 32 0) 32 (fs.file (sysfsPath name (lit "device/../manufacturer"))) with
            | ok x =>
              simp only [Res.bind_ok]
              by_cases h3 : x.2 = 0
              · rw [if_pos h3, if_pos h3]; rfl
              · rw [if_neg h3, if_neg h3]
                cases readLine (List.replicate 32 0) 32 (fs.file (sysfsPath name (lit "device/../product"))) with
                | ok y =>
                  simp only [Res.bind_ok]
                  by_cases h4 : y.2 = 0
                  · rw [if_pos h4, if_pos h4]; rfl
                  · rw [if_neg h4, if_neg h4]
                    cases wr buf 0 _ <;> rfl
                | _ => rfl
            | _ => rfl
          | false =>
            simp only [Bool.false_eq_true, if_false, Res.bind_eq, Res.pure_eq]
            cases readLine (List.replicate 16 0) 16 (fs.file (sysfsPath name (lit "device/vendor"))) with
            | ok x =>
              simp only [Res.bind_ok]
              by_cases h3 : x.2 = 0
              · rw [if_pos h3, if_pos h3]; rfl
              · rw [if_neg h3, if_neg h3]
                cases readLine (List.replicate 16 0) 16 (fs.file (sysfsPath name (lit "device/device"))) with
                | ok y =>
                  simp only [Res.bind_ok]
                  by_cases h4 : y.2 = 0
                  · rw [if_pos h4, if_pos h4]; rfl
                  · rw [if_neg h4, if_neg h4]
                    cases wr (List.replicate 512 0) 0 _ <;> rfl
                | _ => rfl
            | _ => rfl
        · rw [if_pos h1, if_pos h1]; rfl

theorem op_same (c : Conf) (fs : Fs) (env : PEnv) (r : Req) (name : Bytes) (s : Parent) :
    ((opFiles c fs env r name s).bind fun y => .ok (y.1, y.2.1, y.2.2.1)) = parentOp c (fs.env env) r name s := by
  unfold opFiles
  by_cases h2 : r.op = 2
  · rw [if_pos h2]
    unfold parentOp
    rw [if_neg (by rw [h2]; decide), if_neg (by rw [h2]; decide), if_pos h2, ← descr_same fs env]
    unfold forget
    have : ((fs.env env).alias name).isSome = fs.stat (sysfsPath name (lit "ifalias")) := by
      simp only [Fs.env]
      cases fs.stat (sysfsPath name (lit "ifalias")) <;> rfl
    rw [this]
    cases descrFiles fs true name r.buf <;> rfl
  rw [if_neg h2]
  by_cases h3 : r.op = 3
  · rw [if_pos h3]
    unfold parentOp
    rw [if_neg (by rw [h3]; decide), if_neg (by rw [h3]; decide), if_neg h2, if_pos h3, ← descr_same fs env]
    unfold forget
    cases descrFiles fs false name r.buf <;> rfl
  rw [if_neg h3]
  by_cases h4 : r.op = 4
  · rw [if_pos h4]
    unfold parentOp
    rw [if_neg (by rw [h4]; decide), if_neg (by rw [h4]; decide), if_neg h2, if_neg h3, if_pos h4]
    unfold deviceFiles
    simp only [Fs.env]
    by_cases hd : fs.stat (sysfsPath name (lit "device")) = true <;> simp [hd]
  rw [if_neg h4]
  by_cases h5 : r.op = 5
  · rw [if_pos h5]
    unfold parentOp
    rw [if_neg (by rw [h5]; decide), if_neg (by rw [h5]; decide), if_neg h2, if_neg h3, if_neg h4, if_pos h5, ← deviceId_same fs env]
    unfold forget
    cases deviceIdFiles fs env.pciName name r.buf <;> rfl
  rw [if_neg h5]
  cases parentOp c (fs.env env) r name s <;> rfl

/-- Answering from the file system is what C25 to C28 speak of: the same new state and the same reply, or the same failure. -/
theorem C103_same (c : Conf) (fs : Fs) (env : PEnv) (s : Parent) (dg : Bytes) :
    ((reqFiles c fs env s dg).bind fun y => .ok (y.1, y.2.1)) = parentReq c (fs.env env) s dg := by
  unfold reqFiles parentReq
  dsimp only
  split
  · rfl
  · show _ = (match env.ifName _ with | none => _ | some name => _)
    cases env.ifName (reqOf (recvInto REQ_MAX dg).1).index with
    | none =>
      dsimp only
      simp only [Res.bind_eq, Res.pure_eq]
      cases reply { reqOf (recvInto REQ_MAX dg).1 with len := 0 } <;> rfl
    | some name =>
      dsimp only
      simp only [Res.bind_eq, Res.pure_eq]
      cases wr (reqOf (recvInto REQ_MAX dg).1).name 0 (name ++ [0]) with
      | ok nm =>
        simp only [Res.bind_ok]
        split
        · rfl
        · rw [← op_same]
          cases opFiles c fs env (reqOf (recvInto REQ_MAX dg).1) name s with
          | ok x =>
            simp only [Res.bind_ok]
            cases reply { reqOf (recvInto REQ_MAX dg).1 with name := nm, len := x.2.2.1, buf := x.2.1 } <;> rfl
          | _ => rfl
      | _ => rfl

theorem descr_touch {fs : Fs} {set : Bool} {name buf buf' : Bytes} {n : Nat} {calls : List FsCall} (hn : name.length ≤ 15)
    (h : descrFiles fs set name buf = .ok (buf', n, calls)) (a : FsCall) (ha : a ∈ calls) :
    a = .stat (inDir name (lit "ifalias")) ∨ (set = true ∧ a = .write (inDir name (lit "ifalias")) (cstr buf')) ∨
      (set = false ∧ a = .read (inDir name (lit "ifalias"))) := by
  unfold descrFiles at h
  rw [sysfsPath_eq hn (by decide +kernel)] at h
  cases hw : wr buf 64 [0] with
  | ok m =>
    rw [hw] at h
    simp only [Res.bind_eq, Res.bind_ok, Res.pure_eq] at h
    split at h
    · cases h
      exact .inl (List.mem_singleton.mp ha)
    · split at h
      · next hset =>
        cases h
        simp only [List.mem_cons, List.not_mem_nil, or_false] at ha
        exact ha.imp id (fun h => .inl ⟨hset, h⟩)
      · next hset =>
        cases hr : readLine m 64 (fs.file (inDir name (lit "ifalias"))) with
        | ok x =>
          rw [hr] at h
          cases h
          simp only [List.mem_cons, List.not_mem_nil, or_false] at ha
          exact ha.imp id (fun h => .inr ⟨by simpa using hset, h⟩)
        | _ => rw [hr] at h; cases h
  | _ => rw [hw] at h; cases h

theorem deviceId_touch {fs : Fs} {pn : Bytes → Bytes → Bytes} {name buf buf' : Bytes} {n : Nat} {calls : List FsCall} (hn : name.length ≤ 15)
    (h : deviceIdFiles fs pn name buf = .ok (buf', n, calls)) (a : FsCall) (ha : a ∈ calls) (payload : Bytes) : MayTouch 5 name payload a := by
  have e1 := sysfsPath_eq (what := lit "device/subsystem") hn (by decide +kernel)
  have e2 := sysfsPath_eq (what := lit "device/../manufacturer") hn (by decide +kernel)
  have e3 := sysfsPath_eq (what := lit "device/../product") hn (by decide +kernel)
  have e4 := sysfsPath_eq (what := lit "device/vendor") hn (by decide +kernel)
  have e5 := sysfsPath_eq (what := lit "device/device") hn (by decide +kernel)
  have t1 : MayTouch 5 name payload (.stat (lit "/proc/bus/pci")) := .inr (.inr ⟨rfl, rfl⟩)
  have t2 : MayTouch 5 name payload (.readlink (inDir name (lit "device/subsystem"))) := ⟨rfl, rfl⟩
  have t3 : ∀ w ∈ [lit "device/vendor", lit "device/device", lit "device/../manufacturer", lit "device/../product"],
      MayTouch 5 name payload (.read (inDir name w)) := fun w hw => .inr ⟨rfl, w, hw, rfl⟩
  have all : ∀ l : List FsCall, a ∈ l → (∀ x ∈ l, MayTouch 5 name payload x) → MayTouch 5 name payload a := fun l h1 h2 => h2 a h1
  unfold deviceIdFiles at h
  rw [e1, e2, e3, e4, e5] at h
  simp only [Res.bind_eq, Res.pure_eq] at h
  have c0 : ∀ x ∈ [FsCall.stat (lit "/proc/bus/pci")], MayTouch 5 name payload x := by
    intro x hx; rw [List.mem_singleton.mp hx]; exact t1
  have c1 : ∀ x ∈ [FsCall.stat (lit "/proc/bus/pci"), .readlink (inDir name (lit "device/subsystem"))], MayTouch 5 name payload x := by
    intro x hx
    rcases List.mem_cons.mp hx with rfl | hx
    · exact t1
    · rw [List.mem_singleton.mp hx]; exact t2
  have c2 : ∀ w ∈ [lit "device/vendor", lit "device/device", lit "device/../manufacturer", lit "device/../product"],
      ∀ x ∈ [FsCall.stat (lit "/proc/bus/pci"), .readlink (inDir name (lit "device/subsystem")), .read (inDir name w)], MayTouch 5 name payload x := by
    intro w hw x hx
    rcases List.mem_cons.mp hx with rfl | hx
    · exact t1
    rcases List.mem_cons.mp hx with rfl | hx
    · exact t2
    · rw [List.mem_singleton.mp hx]; exact t3 w hw
  have c3 : ∀ w ∈ [lit "device/vendor", lit "device/device", lit "device/../manufacturer", lit "device/../product"],
      ∀ v ∈ [lit "device/vendor", lit "device/device", lit "device/../manufacturer", lit "device/../product"],
      ∀ x ∈ [FsCall.stat (lit "/proc/bus/pci"), .readlink (inDir name (lit "device/subsystem")), .read (inDir name w), .read (inDir name v)],
        MayTouch 5 name payload x := by
    intro w hw v hv x hx
    rcases List.mem_cons.mp hx with rfl | hx
    · exact t1
    rcases List.mem_cons.mp hx with rfl | hx
    · exact t2
    rcases List.mem_cons.mp hx with rfl | hx
    · exact t3 w hw
    · rw [List.mem_singleton.mp hx]; exact t3 v hv
  split at h
  · cases h; exact c0 a ha
  split at h
  · cases h; exact c0 a ha
  split at h
  · cases h; exact c1 a ha
  next t _ =>
  split at h
  · cases h; exact c1 a ha
  split at h
  · cases h1 : readLine (List.replicate 32 0) 32 (fs.file (inDir name (lit "device/../manufacturer"))) with
    | ok x =>
      rw [h1, Res.bind_ok] at h
      split at h
      · cases h; exact c2 _ (by simp) a ha
      cases h2 : readLine (List.replicate 32 0) 32 (fs.file (inDir name (lit "device/../product"))) with
      | ok y =>
        rw [h2, Res.bind_ok] at h
        split at h
        · cases h; exact c3 _ (by simp) _ (by simp) a ha
        · cases h3 : wr buf 0 ((trimEnd (cstr y.1) ++ lit " (" ++ trimEnd (cstr x.1) ++ lit ")").take 511 ++ [0]) with
          | ok z => rw [h3] at h; cases h; exact c3 _ (by simp) _ (by simp) a ha
          | _ => rw [h3] at h; cases h
      | _ => rw [h2] at h; cases h
    | _ => rw [h1] at h; cases h
  · cases h1 : readLine (List.replicate 16 0) 16 (fs.file (inDir name (lit "device/vendor"))) with
    | ok x =>
      rw [h1, Res.bind_ok] at h
      split at h
      · cases h; exact c2 _ (by simp) a ha
      cases h2 : readLine (List.replicate 16 0) 16 (fs.file (inDir name (lit "device/device"))) with
      | ok y =>
        rw [h2, Res.bind_ok] at h
        split at h
        · cases h; exact c3 _ (by simp) _ (by simp) a ha
        · cases h3 : wr (List.replicate 512 0) 0 ((cstr (pn (cstr x.1) (cstr y.1))).take 511 ++ [0]) with
          | ok z => rw [h3] at h; cases h; exact c3 _ (by simp) _ (by simp) a ha
          | _ => rw [h3] at h; cases h
      | _ => rw [h2] at h; cases h
    | _ => rw [h1] at h; cases h

theorem req_op {c : Conf} {fs : Fs} {env : PEnv} {s s' : Parent} {dg b : Bytes} {calls : List FsCall}
    (h : reqFiles c fs env s dg = .ok (s', b, calls)) :
    ∃ op i payload, Asks (dg.take 544) op i payload ∧
      match env.ifName i with
      | none => calls = []
      | some name => (UInt8.ofNat op).toNat = op ∧ Served op payload.length ∧ ∃ pad name16 s1 buf n,
        opFiles c fs env ⟨UInt8.ofNat op, pad, i, name16, payload.length, payload ++ List.replicate (512 - payload.length) 0⟩ name s = .ok (s1, buf, n, calls) := by
  unfold reqFiles at h
  rw [recvInto_eq] at h
  dsimp only at h
  have hl : (dg.take 544).length ≤ 544 := List.length_take_le _ _
  rw [show REQ_MAX = 544 from rfl] at h
  generalize dg.take 544 = d at hl h
  generalize hz : List.replicate (544 - d.length) (0 : UInt8) = z at h
  split at h
  · cases h
  next hc =>
  obtain ⟨op, i, payload, ha⟩ := asks_of_check hl z (by unfold REQ_MIN at hc; omega) (by omega)
  obtain ⟨pad, name16, hpad, hname, h1, h2⟩ := reqOf_asks ha z
  have ho256 : op < 256 := by obtain ⟨_, _, _, _, h, _⟩ := ha; exact h
  have hon : (UInt8.ofNat op).toNat = op := by rw [UInt8.toNat_ofNat']; omega
  have hp : payload.length ≤ 512 := by omega
  have hz' : z = List.replicate (512 - payload.length) 0 := by rw [← hz]; congr 1; omega
  refine ⟨op, i, payload, ha, ?_⟩
  rw [h2, hz'] at h
  dsimp only at h
  cases hn : env.ifName i with
  | none =>
    rw [hn] at h
    dsimp only at h
    simp only [Res.bind_eq, Res.pure_eq] at h
    dsimp only
    cases hr : reply ⟨UInt8.ofNat op, pad, i, name16, 0, payload ++ List.replicate (512 - payload.length) 0⟩ with
    | ok x => rw [hr] at h; cases h; rfl
    | _ => rw [hr] at h; cases h
  | some name =>
    rw [hn] at h
    dsimp only at h ⊢
    simp only [Res.bind_eq, Res.pure_eq] at h
    cases hw : wr name16 0 (name ++ [0]) with
    | ok nm =>
      rw [hw, Res.bind_ok] at h
      split at h
      · cases h
      next hck =>
      have hck := (parentCheck_iff ⟨UInt8.ofNat op, pad, i, name16, payload.length, payload ++ List.replicate (512 - payload.length) 0⟩ hp).mp (by simpa using hck)
      dsimp only at hck
      rw [hon] at hck
      cases ho : opFiles c fs env ⟨UInt8.ofNat op, pad, i, name16, payload.length, payload ++ List.replicate (512 - payload.length) 0⟩ name s with
      | ok x =>
        obtain ⟨s1, buf, n, cs⟩ := x
        rw [ho, Res.bind_ok] at h
        dsimp only at h
        obtain rfl : cs = calls := by
          revert h
          cases reply ⟨UInt8.ofNat op, pad, i, nm, n, buf⟩ with
          | ok b => intro h; cases h; rfl
          | _ => intro h; cases h
        exact ⟨hon, hck, pad, name16, s1, buf, n, ho⟩
      | _ => rw [ho] at h; cases h
    | _ => rw [hw] at h; cases h

/-- Whatever datagram the unprivileged process sends, if the privileged one does not end: the datagram is a request about some interface, and only files are touched
that its operation stands for, in the directory of that interface, by the name the kernel gives it.  The name in the request and the length of names do not matter;
if there is no such interface nothing is touched. -/
theorem C103_touched (c : Conf) (fs : Fs) (env : PEnv) (he : PEnvOk env) (s s' : Parent) (dg b : Bytes) (calls : List FsCall)
    (h : reqFiles c fs env s dg = .ok (s', b, calls)) :
    ∃ op i payload, Asks (dg.take 544) op i payload ∧
      match env.ifName i with
      | none => calls = []
      | some name => ∀ a ∈ calls, MayTouch op name payload a := by
  obtain ⟨op, i, payload, ha, hrest⟩ := req_op h
  refine ⟨op, i, payload, ha, ?_⟩
  cases hn : env.ifName i with
  | none => rw [hn] at hrest; exact hrest
  | some name =>
    rw [hn] at hrest
    obtain ⟨hon, hck, pad, name16, s1, buf, n, ho⟩ := hrest
    have hnl := he.name i name hn
    dsimp only
    unfold opFiles at ho
    dsimp only at ho
    simp only [Res.bind_eq, Res.pure_eq] at ho
    intro a hmem
    split at ho
    · next h2 =>
      have hop : op = 2 := by rw [← hon, h2]; rfl
      subst hop
      cases hd : descrFiles fs true name (payload ++ List.replicate (512 - payload.length) 0) with
      | ok y =>
        obtain ⟨buf', n', cs'⟩ := y
        rw [hd] at ho
        cases ho
        have hset := descr_same fs env true name (payload ++ List.replicate (512 - payload.length) 0)
        rw [hd] at hset
        obtain ⟨b2, n2, e, -, -, ht, -⟩ := parentDescr_set (fs.env env) name (payload := payload) (hck.2.2.2 rfl)
        rw [e] at hset
        cases hset
        rcases descr_touch hnl hd a hmem with rfl | ⟨-, rfl⟩ | ⟨h, -⟩
        · exact .inl ⟨.inl rfl, rfl⟩
        · exact ⟨rfl, rfl, ht⟩
        · cases h
      | _ => rw [hd] at ho; cases ho
    split at ho
    · next h3 =>
      have hop : op = 3 := by rw [← hon, h3]; rfl
      subst hop
      cases hd : descrFiles fs false name (payload ++ List.replicate (512 - payload.length) 0) with
      | ok y =>
        obtain ⟨buf', n', cs'⟩ := y
        rw [hd] at ho
        cases ho
        rcases descr_touch hnl hd a hmem with rfl | ⟨h, -⟩ | ⟨-, rfl⟩
        · exact .inl ⟨.inr rfl, rfl⟩
        · cases h
        · exact .inl ⟨rfl, rfl⟩
      | _ => rw [hd] at ho; cases ho
    split at ho
    · next h4 =>
      have hop : op = 4 := by rw [← hon, h4]; rfl
      subst hop
      have : a = .stat (inDir name (lit "device")) := by
        unfold deviceFiles at ho
        rw [sysfsPath_eq hnl (by decide +kernel)] at ho
        dsimp only at ho
        split at ho
        · cases ho; exact List.mem_singleton.mp hmem
        · cases ho; exact List.mem_singleton.mp hmem
      rw [this]
      exact .inr (.inl ⟨rfl, rfl⟩)
    split at ho
    · next h5 =>
      have hop : op = 5 := by rw [← hon, h5]; rfl
      subst hop
      cases hd : deviceIdFiles fs env.pciName name (payload ++ List.replicate (512 - payload.length) 0) with
      | ok y =>
        obtain ⟨buf', n', cs'⟩ := y
        rw [hd] at ho
        cases ho
        exact deviceId_touch hnl hd a hmem payload
      | _ => rw [hd] at ho; cases ho
    · exfalso
      revert ho
      cases parentOp c (fs.env env) ⟨UInt8.ofNat op, pad, i, name16, payload.length, payload ++ List.replicate (512 - payload.length) 0⟩ name s with
      | ok y => intro ho; cases ho; cases hmem
      | _ => intro ho; cases ho

/-- And they are touched: a description sent is written if the interface has such a file, a description asked for is read then, and a device asked for is looked
for; the request is then not refused. -/
theorem C103_done (c : Conf) (fs : Fs) (env : PEnv) (he : PEnvOk env) (s : Parent) (dg : Bytes) (op i : Nat) (payload name : Bytes)
    (ha : Asks (dg.take 544) op i payload) (hn : env.ifName i = some name) (hs : Served op payload.length) (hop : op = 2 ∨ op = 3 ∨ op = 4) :
    ∃ s' b calls, reqFiles c fs env s dg = .ok (s', b, calls) ∧
      (op = 2 → fs.stat (inDir name (lit "ifalias")) = true → .write (inDir name (lit "ifalias")) (payload.takeWhile (· ≠ 0)) ∈ calls) ∧
      (op = 3 → fs.stat (inDir name (lit "ifalias")) = true → .read (inDir name (lit "ifalias")) ∈ calls) ∧
      (op = 4 → .stat (inDir name (lit "device")) ∈ calls) := by
  have hnl := he.name i name hn
  have he' : PEnvOk (fs.env env) := ⟨he.name, he.ethtool⟩
  obtain ⟨s', b, hreq⟩ : ∃ s' b, parentReq c (fs.env env) s dg = .ok (s', b) := by
    rcases parentReq_cases (c := c) he' s dg with ⟨h1, -⟩ | ⟨op', i', payload', hask', h1⟩
    · exact absurd ha (h1 op i payload)
    · obtain ⟨rfl, rfl, rfl⟩ := asks_inj ha hask'
      rcases h1 with ⟨hnone, -⟩ | ⟨name', hn', ⟨hns, -⟩ | ⟨-, ⟨h0, -⟩ | ⟨s1, b1, _, _, h1, -⟩⟩⟩
      · have : env.ifName i = none := hnone
        rw [hn] at this; cases this
      · exact absurd hs hns
      · omega
      · exact ⟨s1, b1, h1⟩
  rw [← C103_same] at hreq
  cases hf : reqFiles c fs env s dg with
  | ok x =>
    obtain ⟨s1, b1, calls⟩ := x
    refine ⟨s1, b1, calls, rfl, ?_⟩
    obtain ⟨op', i', payload', ha', hrest⟩ := req_op hf
    obtain ⟨rfl, rfl, rfl⟩ := asks_inj ha ha'
    rw [hn] at hrest
    obtain ⟨hon, -, pad, name16, s1, buf, n, ho⟩ := hrest
    unfold opFiles at ho
    dsimp only at ho
    simp only [Res.bind_eq, Res.pure_eq] at ho
    refine ⟨?_, ?_, ?_⟩
    · rintro rfl hst
      rw [if_pos (by decide)] at ho
      cases hd : descrFiles fs true name (payload ++ List.replicate (512 - payload.length) 0) with
      | ok y =>
        obtain ⟨buf', n', cs'⟩ := y
        rw [hd] at ho
        cases ho
        have hset := descr_same fs env true name (payload ++ List.replicate (512 - payload.length) 0)
        rw [hd] at hset
        obtain ⟨b2, n2, e, -, -, ht, -⟩ := parentDescr_set (fs.env env) name (payload := payload) (hs.2.2.2 rfl)
        rw [e] at hset
        cases hset
        unfold descrFiles at hd
        rw [sysfsPath_eq hnl (by decide +kernel)] at hd
        cases hw : wr (payload ++ List.replicate (512 - payload.length) 0) 64 [0] with
        | ok m =>
          rw [hw] at hd
          simp only [Res.bind_eq, Res.bind_ok, Res.pure_eq, hst, Bool.not_true, Bool.false_eq_true, if_false, if_true] at hd
          cases hd
          rw [ht]
          simp
        | _ => rw [hw] at hd; cases hd
      | _ => rw [hd] at ho; cases ho
    · rintro rfl hst
      rw [if_neg (by decide), if_pos (by decide)] at ho
      cases hd : descrFiles fs false name (payload ++ List.replicate (512 - payload.length) 0) with
      | ok y =>
        obtain ⟨buf', n', cs'⟩ := y
        rw [hd] at ho
        cases ho
        unfold descrFiles at hd
        rw [sysfsPath_eq hnl (by decide +kernel)] at hd
        cases hw : wr (payload ++ List.replicate (512 - payload.length) 0) 64 [0] with
        | ok m =>
          rw [hw] at hd
          simp only [Res.bind_eq, Res.bind_ok, Res.pure_eq, hst, Bool.not_true, Bool.false_eq_true, if_false] at hd
          cases hr : readLine m 64 (fs.file (inDir name (lit "ifalias"))) with
          | ok z => rw [hr] at hd; cases hd; simp
          | _ => rw [hr] at hd; cases hd
        | _ => rw [hw] at hd; cases hd
      | _ => rw [hd] at ho; cases ho
    · rintro rfl
      rw [if_neg (by decide), if_neg (by decide), if_pos (by decide)] at ho
      unfold deviceFiles at ho
      rw [sysfsPath_eq hnl (by decide +kernel)] at ho
      dsimp only at ho
      split at ho
      · cases ho; simp
      · cases ho; simp
  | _ => rw [hf] at hreq; cases hreq

/-- Files of one interface are not those of another: the kernel allows no `/` in names. -/
theorem C103_apart (n m a b : Bytes) (hn : (0x2f : UInt8) ∉ n) (hm : (0x2f : UInt8) ∉ m) (h : inDir n a = inDir m b) : n = m ∧ a = b := by
  have e : lit "/" = [0x2f] := by decide +kernel
  unfold inDir at h
  rw [e, List.append_assoc, List.append_assoc, List.append_assoc, List.append_assoc] at h
  replace h := List.append_cancel_left h
  clear e
  induction n generalizing m with
  | nil =>
    cases m with
    | nil => exact ⟨rfl, (List.cons.inj h).2⟩
    | cons y m => exact absurd (List.mem_cons.mpr (.inl (List.cons.inj h).1)) hm
  | cons x n ih =>
    cases m with
    | nil => exact absurd (List.mem_cons.mpr (.inl (List.cons.inj h).1.symm)) hn
    | cons y m =>
      obtain ⟨h1, h2⟩ := List.cons.inj h
      obtain ⟨rfl, rfl⟩ := ih m (fun h => hn (List.mem_cons_of_mem _ h)) (fun h => hm (List.mem_cons_of_mem _ h)) h2
      exact ⟨by rw [h1], rfl⟩

/-! ## Sample -/

/-- Interface 3 is `eth0`, with a PCI device; all files can be written. -/
def filesSample : Fs where
  stat p := p = lit "/sys/class/net/eth0/ifalias" || p = lit "/sys/class/net/eth0/device" || p = lit "/proc/bus/pci"
  link p := if p = lit "/sys/class/net/eth0/device/subsystem" then some (lit "../../../bus/pci") else none
  file p := if p = lit "/sys/class/net/eth0/device/vendor" then some (lit "0x8086\n") else if p = lit "/sys/class/net/eth0/device/device" then some (lit "0x10d3\n") else none
  write _ text := some text.length

/-- A request with a forged name. -/
def filesAsk (op : UInt8) (i : Nat) (payload : Bytes) : Bytes :=
  op :: [0, 0, 0] ++ leBytes 4 i ++ lit "../../../etc/x\x00\x00" ++ leBytes 8 payload.length ++ payload

def filesTouched (op : UInt8) (i : Nat) (payload : Bytes) : Option (List FsCall) :=
  match reqFiles { opts := 0 } filesSample { ifName := fun i => if i = 3 then some (lit "eth0") else none, pciName := fun _ _ => lit "a card" } {} (filesAsk op i payload) with
  | .ok (_, _, calls) => some calls
  | _ => none

example : PEnvOk { ifName := fun i => if i = 3 then some (lit "eth0") else none, pciName := fun _ _ => lit "a card" } := by
  constructor
  · intro i n h
    dsimp only at h
    split at h
    · cases h; decide +kernel
    · cases h
  · intro _ _ _ h; cases h

example : filesTouched 2 3 (lit "uplink") = some [.stat (lit "/sys/class/net/eth0/ifalias"), .write (lit "/sys/class/net/eth0/ifalias") (lit "uplink")] ∧
    filesTouched 3 3 [] = some [.stat (lit "/sys/class/net/eth0/ifalias"), .read (lit "/sys/class/net/eth0/ifalias")] ∧
    filesTouched 4 3 [] = some [.stat (lit "/sys/class/net/eth0/device")] ∧
    filesTouched 5 3 [] = some [.stat (lit "/proc/bus/pci"), .readlink (lit "/sys/class/net/eth0/device/subsystem"),
      .read (lit "/sys/class/net/eth0/device/vendor"), .read (lit "/sys/class/net/eth0/device/device")] ∧
    filesTouched 2 4 (lit "uplink") = some [] ∧ filesTouched 9 3 [] = none := by
  decide +kernel

end Ladvd.Props
