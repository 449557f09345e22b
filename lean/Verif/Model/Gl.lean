import Verif.Model.Sample

/-!
# Model of the OpenGL wrappers, `src/GL/nx_gl_buffer.c`, `src/GL/nx_gl_shader.c`, `src/GL/nx_gl_program.c`, `src/GL/nx_gl.c`

The OpenGL library is modelled by its specification (OpenGL ES 3.2) as far as the wrappers use it: names of buffers, their data
stores and the binding points; shaders with their deletion mark, programs and the shaders attached to them. What the library
decides (names, whether something compiles, the log) is given by a `GlDriver`. Memory that is not initialised has the contents
`junk`. Enumerators are numbers. Other errors of the library, logging and drawing are not modelled.
-/

namespace Nx

/-! ### Buffers -/

/-- The names of the buffers that exist, their data stores and the binding points. -/
structure GlBufs where
  live : List Nat
  store : Nat → List UInt8
  bound : Nat → Nat

/-- `struct NXGLBuffer`, `include/virg/nexus/GL/nx_gl_buffer.h:34-40`; the pointer to the data, which is not used again, is left out. -/
structure GlBuffer where
  id : Nat
  target : Nat
  size : Int
  usage : Nat
deriving DecidableEq, Repr

/-- `GL_ARRAY_BUFFER`, `GL_STATIC_DRAW`, `GLES3/gl32.h`. -/
def glArrayBuffer : Nat := 0x8892
def glStaticDraw : Nat := 0x88E4

/-- `glBindBuffer`. -/
def glBindBuffer (c : GlBufs) (target id : Nat) : GlBufs :=
  { c with bound := fun t => if t = target then id else c.bound t }

/-- `glBufferData`: without a buffer at the binding point or with a negative size an error is recorded and nothing else happens. -/
def glBufferData (c : GlBufs) (target : Nat) (size : Int) (data : List UInt8) : Res GlBufs :=
  if c.bound target = 0 ∨ size < 0 then .ok c
  else if data.length < size.toNat then .ub
  else .ok { c with store := fun n => if n = c.bound target then data.take size.toNat else c.store n }

/-- `glDeleteBuffers` for one name: 0 is ignored, the binding points of the buffer are reset. -/
def glDeleteBuffer (c : GlBufs) (id : Nat) : GlBufs :=
  if id = 0 then c
  else { live := c.live.filter (· ≠ id), store := fun n => if n = id then [] else c.store n,
         bound := fun t => if c.bound t = id then 0 else c.bound t }

/-- `nx_gl_buffer_alloc`, `src/GL/nx_gl_buffer.c:32-46`; `name` is what `glGenBuffers` stores. -/
def glBufferAlloc (c : GlBufs) (name : Nat) : Res (GlBufs × GlBuffer) :=
  if name = 0 then .fatal
  else .ok ({ c with live := name :: c.live, store := fun n => if n = name then [] else c.store n },
    ⟨name, glArrayBuffer, 0, glStaticDraw⟩)

/-- `nx_gl_buffer_new`, `src/GL/nx_gl_buffer.c:48-65`. -/
def glBufferNew (c : GlBufs) (name target : Nat) (size : Int) (data : Option (List UInt8)) (usage : Nat) :
    Res (GlBufs × GlBuffer) :=
  match data with
  | none => .fatal
  | some data => do
    let r ← glBufferAlloc c name
    let b := { r.2 with target := target, size := size, usage := usage }
    let c := glBindBuffer r.1 b.target b.id
    let c ← glBufferData c b.target b.size data
    pure (c, b)

/-- `nx_gl_buffer_free`, `src/GL/nx_gl_buffer.c:67-74`. -/
def glBufferFree (c : GlBufs) (b : Option GlBuffer) : GlBufs :=
  match b with
  | none => c
  | some b => glDeleteBuffer (glBindBuffer c b.target 0) b.id

/-- `nx_gl_buffer_bind`, `src/GL/nx_gl_buffer.c:76-81`. -/
def glBufferBind (c : GlBufs) (b : Option GlBuffer) : Res GlBufs :=
  match b with
  | none => .fatal
  | some b => .ok (glBindBuffer c b.target b.id)

/-! ### Shaders and programs -/

/-- A shader object: its type, whether it compiled, and whether it is marked for deletion. -/
structure GlShader where
  name : Nat
  kind : Nat
  compiled : Bool
  marked : Bool
deriving DecidableEq, Repr

/-- A program object: the shaders attached to it. -/
structure GlProgram where
  name : Nat
  attached : List Nat
  linked : Bool
deriving DecidableEq, Repr

/-- The objects that exist. -/
structure GlObjs where
  shaders : List GlShader
  programs : List GlProgram
deriving DecidableEq, Repr

/-- What the library decides. `logBytes n` are the bytes that it stores in a buffer of `n` bytes for the log. -/
structure GlDriver where
  newShader : GlObjs → Nat → Nat
  compiles : Nat → List UInt8 → Bool
  newProgram : GlObjs → Nat
  links : GlObjs → Nat → Nat → Bool
  validates : GlObjs → Nat → Bool
  logLen : Int
  logBytes : Nat → List UInt8
  junk : Nat → UInt8

/-- The library does not write beyond the size that it is given, `glGetShaderInfoLog`, `glGetProgramInfoLog`. -/
def GlDriver.Bounded (d : GlDriver) : Prop := ∀ n, (d.logBytes n).length ≤ n

/-- The bytes of a string up to the terminating 0, for the message; `ub` without one. -/
def cText : List UInt8 → Res (List UInt8)
  | [] => .ub
  | b :: bs => if b = 0 then .ok [] else do
    let r ← cText bs
    pure (b :: r)

/-- Writing bytes from the beginning of an array. -/
def storeBytes : List UInt8 → Nat → List UInt8 → Res (List UInt8)
  | [], _, mem => .ok mem
  | b :: bs, i, mem => do
    let mem ← writeAt mem i b
    storeBytes bs (i + 1) mem

/-- The message of the log, `src/GL/nx_gl_shader.c:64-75`, `src/GL/nx_gl_program.c:50-63`, `:79-94`: the string that is printed. -/
def glInfoLog (d : GlDriver) : Res (List UInt8) :=
  if d.logLen > 1 then do
    let mem := (List.range d.logLen.toNat).map d.junk
    let mem ← storeBytes (d.logBytes d.logLen.toNat) 0 mem
    let mem ← writeAt mem (d.logLen - 1).toNat 0
    cText mem
  else do
    let mem := (List.range 1).map d.junk
    let mem ← writeAt mem 0 0
    cText mem

/-- `nx_gl_shader_xcreate_and_compile`, `src/GL/nx_gl_shader.c:43-79`. -/
def glShaderCreate (d : GlDriver) (o : GlObjs) (kind : Nat) (src : List UInt8) : Res (GlObjs × Nat) :=
  let shader := d.newShader o kind
  if shader = 0 then .fatal
  else
    let ok := d.compiles kind src
    let o := { o with shaders := ⟨shader, kind, ok, false⟩ :: o.shaders }
    if ok then .ok (o, shader)
    else do
      let _ ← glInfoLog d
      .fatal

/-- `nx_gl_program_xcreate_and_link`, `src/GL/nx_gl_program.c:33-67`. -/
def glProgramCreate (d : GlDriver) (o : GlObjs) (v f : Nat) : Res (GlObjs × Nat) :=
  let program := d.newProgram o
  if program = 0 then .fatal
  else
    let ok := d.links o v f
    let o := { o with programs := ⟨program, [v, f], ok⟩ :: o.programs }
    if ok then .ok (o, program)
    else do
      let _ ← glInfoLog d
      .fatal

/-- `nx_gl_program_xvalidate`, `src/GL/nx_gl_program.c:69-96`. -/
def glProgramValidate (d : GlDriver) (o : GlObjs) (program : Nat) : Res Unit :=
  if program = 0 then .fatal
  else if d.validates o program then .ok ()
  else do
    let _ ← glInfoLog d
    .fatal

/-- `glDeleteShader`: a shader that is attached to a program is only marked. -/
def glDeleteShader (o : GlObjs) (s : Nat) : GlObjs :=
  if o.programs.any fun p => p.attached.contains s then
    { o with shaders := o.shaders.map fun x => if x.name = s then { x with marked := true } else x }
  else { o with shaders := o.shaders.filter fun x => x.name ≠ s }

/-- `glDeleteProgram` for a program that is not in use: its shaders are detached, and those that are marked and attached to no other
program are deleted. -/
def glDeleteProgram (o : GlObjs) (p : Nat) : GlObjs :=
  let rest := o.programs.filter fun q => q.name ≠ p
  let gone := (o.programs.filter fun q => q.name = p).flatMap (·.attached)
  { programs := rest,
    shaders := o.shaders.filter fun x => !(x.marked && gone.contains x.name && !rest.any fun q => q.attached.contains x.name) }

/-- `GL_VERTEX_SHADER`, `GL_FRAGMENT_SHADER`, `GLES3/gl32.h`. -/
def glVertexShader : Nat := 0x8B31
def glFragmentShader : Nat := 0x8B30

/-- `nx_gl_program_from_vf_shaders`, `include/virg/nexus/GL/nx_gl_program.h:38-54`. -/
def glProgramFromShaders (d : GlDriver) (o : GlObjs) (vsrc fsrc : List UInt8) : Res (GlObjs × Nat) := do
  let v ← glShaderCreate d o glVertexShader vsrc
  let f ← glShaderCreate d v.1 glFragmentShader fsrc
  let p ← glProgramCreate d f.1 v.2 f.2
  glProgramValidate d p.1 p.2
  let o := glDeleteShader p.1 v.2
  let o := glDeleteShader o f.2
  pure (o, p.2)

end Nx
