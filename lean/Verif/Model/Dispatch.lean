import Verif.Model.Overrides
/-!
# Model of the dispatch tables (dreamstream/func_coverage.py, doc_scrape/lists, dreamstream/tensor.py:773-814)

Which table a torch function is found in decides how it is treated. The tables are written out in full.
-/

namespace DS.Disp

open DS.Tn (Category)

/-- The name of a torch function or method, given as a number: the position in `Op.names`, and any further number for the names that are not in that list. -/
structure Op where
  code : Nat
  deriving DecidableEq

/-- The names of torch functions and methods that occur in func_coverage.py, in the lists it loads (utils/listloaders.py:10-35) and in the decorators of overrides.py; and a few that do not (`sum`, `chunk`, `gt`). -/
def Op.names : List String :=
  ["__repr__", "__str__", "__dir__", "size", "equal", "rename_", "zero_", "fill_", "bernoulli_", "cauchy_", "exponential_", "geometric_",
   "log_normal_", "normal_", "random_", "uniform_", "is_complex", "is_conj", "is_floating_point", "is_nonzero", "numel", "dim", "imag", "real",
   "abs_", "absolute_", "acos_", "arccos_", "acosh_", "arccosh_", "add_", "addcdiv_", "addcmul_", "asin_", "arcsin_", "asinh_", "arcsinh_", "atan_",
   "arctan_", "atanh_", "arctanh_", "atan2_", "arctan2_", "bitwise_not_", "ceil_", "clamp_", "clip_", "cos_", "cosh_", "deg2rad_", "div_",
   "divide_", "digamma_", "erf_", "erfc_", "erfinv_", "exp_", "expm1_", "fix_", "float_power_", "floor_", "floor_divide_", "frac_", "ldexp_",
   "lgamma_", "log_", "log10_", "log1p_", "log2_", "logical_and_", "logical_not_", "logical_or_", "logical_xor_", "hypot_", "i0_", "igamma_",
   "igammac_", "mul_", "multiply_", "neg_", "negative_", "nextafter_", "polygamma_", "pow_", "rad2deg_", "reciprocal_", "round_", "rsqrt_",
   "sigmoid_", "sign_", "sin_", "sinh_", "sqrt_", "square_", "sub_", "subtract_", "tan_", "tanh_", "true_divide_", "trunc_", "cat", "concat",
   "concatenate", "permute", "split", "unbind", "quantize_per_tensor", "quantize_per_tensor_dynamic", "fake_quantize_per_tensor_affine", "frexp",
   "conv1d", "__getitem__", "narrow", "gather", "take_along_dim", "take", "select", "select_copy", "index_select", "masked_select", "scatter_add",
   "scatter_add_", "scatter_reduce", "scatter_reduce_", "flatten", "squeeze", "unsqueeze", "argmax", "argmin", "argsort", "allclose",
   "quantize_per_channel", "fake_quantize_per_channel_affine", "gradient", "adjoint", "sigmoid", "transpose", "where", "scatter", "scatter_",
   "diagonal_scatter", "select_scatter", "slice_scatter", "isclose", "randint_like", "heaviside", "dequantize", "polar", "complex", "bitwise_and",
   "bitwise_or", "bitwise_xor", "bitwise_left_shift", "bitwise_right_shift", "copysign", "exp2", "fmod", "lerp", "logit", "mvlgamma", "nan_to_num",
   "remainder", "sgn", "sinc", "xlogy", "heaviside_", "bitwise_and_", "bitwise_or_", "bitwise_xor_", "bitwise_left_shift_", "bitwise_right_shift_",
   "conj_physical_", "copysign_", "exp2_", "fmod_", "lerp_", "logit_", "mvlgamma_", "nan_to_num_", "remainder_", "sgn_", "sinc_", "xlogy_",
   "align_to", "rename", "clone", "rand_like", "randn_like", "zeros_like", "ones_like", "empty_like", "full_like", "__abs__", "__neg__", "__add__",
   "abs", "absolute", "acos", "arccos", "acosh", "arccosh", "add", "addcdiv", "addcmul", "angle", "asin", "arcsin", "asinh", "arcsinh", "atan",
   "arctan", "atanh", "arctanh", "atan2", "arctan2", "bitwise_not", "ceil", "clamp", "clip", "conj_physical", "cos", "cosh", "deg2rad", "div",
   "divide", "digamma", "erf", "erfc", "erfinv", "exp", "expm1", "fix", "float_power", "floor", "floor_divide", "frac", "ldexp", "lgamma", "log",
   "log10", "log1p", "log2", "logaddexp", "logaddexp2", "logical_and", "logical_not", "logical_or", "logical_xor", "hypot", "i0", "igamma",
   "igammac", "mul", "multiply", "neg", "negative", "nextafter", "polygamma", "positive", "pow", "rad2deg", "reciprocal", "round", "rsqrt", "sign",
   "signbit", "sin", "sinh", "softmax", "sqrt", "square", "sub", "subtract", "tan", "tanh", "true_divide", "trunc", "sum", "chunk", "gt"]

namespace Op
def __repr__ : Op := ⟨0⟩
def __str__ : Op := ⟨1⟩
def __dir__ : Op := ⟨2⟩
def size : Op := ⟨3⟩
def equal : Op := ⟨4⟩
def rename_ : Op := ⟨5⟩
def zero_ : Op := ⟨6⟩
def fill_ : Op := ⟨7⟩
def bernoulli_ : Op := ⟨8⟩
def cauchy_ : Op := ⟨9⟩
def exponential_ : Op := ⟨10⟩
def geometric_ : Op := ⟨11⟩
def log_normal_ : Op := ⟨12⟩
def normal_ : Op := ⟨13⟩
def random_ : Op := ⟨14⟩
def uniform_ : Op := ⟨15⟩
def is_complex : Op := ⟨16⟩
def is_conj : Op := ⟨17⟩
def is_floating_point : Op := ⟨18⟩
def is_nonzero : Op := ⟨19⟩
def numel : Op := ⟨20⟩
def dim : Op := ⟨21⟩
def imag : Op := ⟨22⟩
def real : Op := ⟨23⟩
def abs_ : Op := ⟨24⟩
def absolute_ : Op := ⟨25⟩
def acos_ : Op := ⟨26⟩
def arccos_ : Op := ⟨27⟩
def acosh_ : Op := ⟨28⟩
def arccosh_ : Op := ⟨29⟩
def add_ : Op := ⟨30⟩
def addcdiv_ : Op := ⟨31⟩
def addcmul_ : Op := ⟨32⟩
def asin_ : Op := ⟨33⟩
def arcsin_ : Op := ⟨34⟩
def asinh_ : Op := ⟨35⟩
def arcsinh_ : Op := ⟨36⟩
def atan_ : Op := ⟨37⟩
def arctan_ : Op := ⟨38⟩
def atanh_ : Op := ⟨39⟩
def arctanh_ : Op := ⟨40⟩
def atan2_ : Op := ⟨41⟩
def arctan2_ : Op := ⟨42⟩
def bitwise_not_ : Op := ⟨43⟩
def ceil_ : Op := ⟨44⟩
def clamp_ : Op := ⟨45⟩
def clip_ : Op := ⟨46⟩
def cos_ : Op := ⟨47⟩
def cosh_ : Op := ⟨48⟩
def deg2rad_ : Op := ⟨49⟩
def div_ : Op := ⟨50⟩
def divide_ : Op := ⟨51⟩
def digamma_ : Op := ⟨52⟩
def erf_ : Op := ⟨53⟩
def erfc_ : Op := ⟨54⟩
def erfinv_ : Op := ⟨55⟩
def exp_ : Op := ⟨56⟩
def expm1_ : Op := ⟨57⟩
def fix_ : Op := ⟨58⟩
def float_power_ : Op := ⟨59⟩
def floor_ : Op := ⟨60⟩
def floor_divide_ : Op := ⟨61⟩
def frac_ : Op := ⟨62⟩
def ldexp_ : Op := ⟨63⟩
def lgamma_ : Op := ⟨64⟩
def log_ : Op := ⟨65⟩
def log10_ : Op := ⟨66⟩
def log1p_ : Op := ⟨67⟩
def log2_ : Op := ⟨68⟩
def logical_and_ : Op := ⟨69⟩
def logical_not_ : Op := ⟨70⟩
def logical_or_ : Op := ⟨71⟩
def logical_xor_ : Op := ⟨72⟩
def hypot_ : Op := ⟨73⟩
def i0_ : Op := ⟨74⟩
def igamma_ : Op := ⟨75⟩
def igammac_ : Op := ⟨76⟩
def mul_ : Op := ⟨77⟩
def multiply_ : Op := ⟨78⟩
def neg_ : Op := ⟨79⟩
def negative_ : Op := ⟨80⟩
def nextafter_ : Op := ⟨81⟩
def polygamma_ : Op := ⟨82⟩
def pow_ : Op := ⟨83⟩
def rad2deg_ : Op := ⟨84⟩
def reciprocal_ : Op := ⟨85⟩
def round_ : Op := ⟨86⟩
def rsqrt_ : Op := ⟨87⟩
def sigmoid_ : Op := ⟨88⟩
def sign_ : Op := ⟨89⟩
def sin_ : Op := ⟨90⟩
def sinh_ : Op := ⟨91⟩
def sqrt_ : Op := ⟨92⟩
def square_ : Op := ⟨93⟩
def sub_ : Op := ⟨94⟩
def subtract_ : Op := ⟨95⟩
def tan_ : Op := ⟨96⟩
def tanh_ : Op := ⟨97⟩
def true_divide_ : Op := ⟨98⟩
def trunc_ : Op := ⟨99⟩
def cat : Op := ⟨100⟩
def concat : Op := ⟨101⟩
def concatenate : Op := ⟨102⟩
def permute : Op := ⟨103⟩
def split : Op := ⟨104⟩
def unbind : Op := ⟨105⟩
def quantize_per_tensor : Op := ⟨106⟩
def quantize_per_tensor_dynamic : Op := ⟨107⟩
def fake_quantize_per_tensor_affine : Op := ⟨108⟩
def frexp : Op := ⟨109⟩
def conv1d : Op := ⟨110⟩
def __getitem__ : Op := ⟨111⟩
def narrow : Op := ⟨112⟩
def gather : Op := ⟨113⟩
def take_along_dim : Op := ⟨114⟩
def take : Op := ⟨115⟩
def select : Op := ⟨116⟩
def select_copy : Op := ⟨117⟩
def index_select : Op := ⟨118⟩
def masked_select : Op := ⟨119⟩
def scatter_add : Op := ⟨120⟩
def scatter_add_ : Op := ⟨121⟩
def scatter_reduce : Op := ⟨122⟩
def scatter_reduce_ : Op := ⟨123⟩
def flatten : Op := ⟨124⟩
def squeeze : Op := ⟨125⟩
def unsqueeze : Op := ⟨126⟩
def argmax : Op := ⟨127⟩
def argmin : Op := ⟨128⟩
def argsort : Op := ⟨129⟩
def allclose : Op := ⟨130⟩
def quantize_per_channel : Op := ⟨131⟩
def fake_quantize_per_channel_affine : Op := ⟨132⟩
def gradient : Op := ⟨133⟩
def adjoint : Op := ⟨134⟩
def sigmoid : Op := ⟨135⟩
def transpose : Op := ⟨136⟩
def «where» : Op := ⟨137⟩
def scatter : Op := ⟨138⟩
def scatter_ : Op := ⟨139⟩
def diagonal_scatter : Op := ⟨140⟩
def select_scatter : Op := ⟨141⟩
def slice_scatter : Op := ⟨142⟩
def isclose : Op := ⟨143⟩
def randint_like : Op := ⟨144⟩
def heaviside : Op := ⟨145⟩
def dequantize : Op := ⟨146⟩
def polar : Op := ⟨147⟩
def complex : Op := ⟨148⟩
def bitwise_and : Op := ⟨149⟩
def bitwise_or : Op := ⟨150⟩
def bitwise_xor : Op := ⟨151⟩
def bitwise_left_shift : Op := ⟨152⟩
def bitwise_right_shift : Op := ⟨153⟩
def copysign : Op := ⟨154⟩
def exp2 : Op := ⟨155⟩
def fmod : Op := ⟨156⟩
def lerp : Op := ⟨157⟩
def logit : Op := ⟨158⟩
def mvlgamma : Op := ⟨159⟩
def nan_to_num : Op := ⟨160⟩
def remainder : Op := ⟨161⟩
def sgn : Op := ⟨162⟩
def sinc : Op := ⟨163⟩
def xlogy : Op := ⟨164⟩
def heaviside_ : Op := ⟨165⟩
def bitwise_and_ : Op := ⟨166⟩
def bitwise_or_ : Op := ⟨167⟩
def bitwise_xor_ : Op := ⟨168⟩
def bitwise_left_shift_ : Op := ⟨169⟩
def bitwise_right_shift_ : Op := ⟨170⟩
def conj_physical_ : Op := ⟨171⟩
def copysign_ : Op := ⟨172⟩
def exp2_ : Op := ⟨173⟩
def fmod_ : Op := ⟨174⟩
def lerp_ : Op := ⟨175⟩
def logit_ : Op := ⟨176⟩
def mvlgamma_ : Op := ⟨177⟩
def nan_to_num_ : Op := ⟨178⟩
def remainder_ : Op := ⟨179⟩
def sgn_ : Op := ⟨180⟩
def sinc_ : Op := ⟨181⟩
def xlogy_ : Op := ⟨182⟩
def align_to : Op := ⟨183⟩
def rename : Op := ⟨184⟩
def clone : Op := ⟨185⟩
def rand_like : Op := ⟨186⟩
def randn_like : Op := ⟨187⟩
def zeros_like : Op := ⟨188⟩
def ones_like : Op := ⟨189⟩
def empty_like : Op := ⟨190⟩
def full_like : Op := ⟨191⟩
def __abs__ : Op := ⟨192⟩
def __neg__ : Op := ⟨193⟩
def __add__ : Op := ⟨194⟩
def abs : Op := ⟨195⟩
def absolute : Op := ⟨196⟩
def acos : Op := ⟨197⟩
def arccos : Op := ⟨198⟩
def acosh : Op := ⟨199⟩
def arccosh : Op := ⟨200⟩
def add : Op := ⟨201⟩
def addcdiv : Op := ⟨202⟩
def addcmul : Op := ⟨203⟩
def angle : Op := ⟨204⟩
def asin : Op := ⟨205⟩
def arcsin : Op := ⟨206⟩
def asinh : Op := ⟨207⟩
def arcsinh : Op := ⟨208⟩
def atan : Op := ⟨209⟩
def arctan : Op := ⟨210⟩
def atanh : Op := ⟨211⟩
def arctanh : Op := ⟨212⟩
def atan2 : Op := ⟨213⟩
def arctan2 : Op := ⟨214⟩
def bitwise_not : Op := ⟨215⟩
def ceil : Op := ⟨216⟩
def clamp : Op := ⟨217⟩
def clip : Op := ⟨218⟩
def conj_physical : Op := ⟨219⟩
def cos : Op := ⟨220⟩
def cosh : Op := ⟨221⟩
def deg2rad : Op := ⟨222⟩
def div : Op := ⟨223⟩
def divide : Op := ⟨224⟩
def digamma : Op := ⟨225⟩
def erf : Op := ⟨226⟩
def erfc : Op := ⟨227⟩
def erfinv : Op := ⟨228⟩
def exp : Op := ⟨229⟩
def expm1 : Op := ⟨230⟩
def fix : Op := ⟨231⟩
def float_power : Op := ⟨232⟩
def floor : Op := ⟨233⟩
def floor_divide : Op := ⟨234⟩
def frac : Op := ⟨235⟩
def ldexp : Op := ⟨236⟩
def lgamma : Op := ⟨237⟩
def log : Op := ⟨238⟩
def log10 : Op := ⟨239⟩
def log1p : Op := ⟨240⟩
def log2 : Op := ⟨241⟩
def logaddexp : Op := ⟨242⟩
def logaddexp2 : Op := ⟨243⟩
def logical_and : Op := ⟨244⟩
def logical_not : Op := ⟨245⟩
def logical_or : Op := ⟨246⟩
def logical_xor : Op := ⟨247⟩
def hypot : Op := ⟨248⟩
def i0 : Op := ⟨249⟩
def igamma : Op := ⟨250⟩
def igammac : Op := ⟨251⟩
def mul : Op := ⟨252⟩
def multiply : Op := ⟨253⟩
def neg : Op := ⟨254⟩
def negative : Op := ⟨255⟩
def nextafter : Op := ⟨256⟩
def polygamma : Op := ⟨257⟩
def positive : Op := ⟨258⟩
def pow : Op := ⟨259⟩
def rad2deg : Op := ⟨260⟩
def reciprocal : Op := ⟨261⟩
def round : Op := ⟨262⟩
def rsqrt : Op := ⟨263⟩
def sign : Op := ⟨264⟩
def signbit : Op := ⟨265⟩
def sin : Op := ⟨266⟩
def sinh : Op := ⟨267⟩
def softmax : Op := ⟨268⟩
def sqrt : Op := ⟨269⟩
def square : Op := ⟨270⟩
def sub : Op := ⟨271⟩
def subtract : Op := ⟨272⟩
def tan : Op := ⟨273⟩
def tanh : Op := ⟨274⟩
def true_divide : Op := ⟨275⟩
def trunc : Op := ⟨276⟩
def sum : Op := ⟨277⟩
def chunk : Op := ⟨278⟩
def gt : Op := ⟨279⟩
end Op

/-- A function that `__torch_function__` can be called with: `torch.<op>`, `torch.Tensor.<op>` (`get_tensor_attr`, utils/listloaders.py:10-11), or the getter of a tensor property. -/
inductive Fn where
  | f (op : Op) | m (op : Op) | getter (name : String)
  deriving DecidableEq

open Fn

/-- The functions written down in `VALID_FUNCTIONS`, func_coverage.py:24-55. -/
def validListed : List Fn :=
  [m .__repr__, m .__str__, m .__dir__, m .size, f .equal, m .rename_, m .zero_, m .fill_, m .bernoulli_, m .cauchy_, m .exponential_,
   m .geometric_, m .log_normal_, m .normal_, m .random_, m .uniform_, f .is_complex, m .is_complex, f .is_conj, m .is_conj, f .is_floating_point,
   m .is_floating_point, f .is_nonzero, m .is_nonzero, f .numel, m .numel, m .dim, m .imag, m .real]

/-- doc_scrape/lists/valid-pointwise-ops-2023_06_19-16_13_42.txt, lines 1-122, added by func_coverage.py:57. -/
def validOps : List Fn :=
  [f .abs_, m .abs_, m .absolute_, f .acos_, m .acos_, f .arccos_, m .arccos_, f .acosh_, m .acosh_, f .arccosh_, m .arccosh_, m .add_, m .addcdiv_,
   m .addcmul_, f .asin_, m .asin_, f .arcsin_, m .arcsin_, f .asinh_, m .asinh_, f .arcsinh_, m .arcsinh_, f .atan_, m .atan_, f .arctan_,
   m .arctan_, f .atanh_, m .atanh_, f .arctanh_, m .arctanh_, m .atan2_, m .arctan2_, m .bitwise_not_, f .ceil_, m .ceil_, f .clamp_, m .clamp_,
   f .clip_, m .clip_, f .cos_, m .cos_, f .cosh_, m .cosh_, f .deg2rad_, m .deg2rad_, m .div_, m .divide_, m .digamma_, f .erf_, m .erf_, f .erfc_,
   m .erfc_, m .erfinv_, f .exp_, m .exp_, f .expm1_, m .expm1_, f .fix_, m .fix_, m .float_power_, f .floor_, m .floor_, m .floor_divide_,
   f .frac_, m .frac_, f .ldexp_, m .ldexp_, m .lgamma_, f .log_, m .log_, f .log10_, m .log10_, f .log1p_, m .log1p_, f .log2_, m .log2_,
   m .logical_and_, m .logical_not_, m .logical_or_, m .logical_xor_, m .hypot_, f .i0_, m .i0_, m .igamma_, m .igammac_, m .mul_, m .multiply_,
   f .neg_, m .neg_, f .negative_, m .negative_, m .nextafter_, m .polygamma_, m .pow_, f .rad2deg_, m .rad2deg_, f .reciprocal_, m .reciprocal_,
   f .round_, m .round_, f .rsqrt_, m .rsqrt_, f .sigmoid_, m .sigmoid_, m .sign_, f .sin_, m .sin_, f .sinh_, m .sinh_, f .sqrt_, m .sqrt_,
   f .square_, m .square_, m .sub_, m .subtract_, f .tan_, m .tan_, f .tanh_, m .tanh_, m .true_divide_, f .trunc_, m .trunc_]

/-- The keys of `CUSTOMIZED_FUNCTIONS`: every `@implements` of overrides.py:52-853 (`torch.functional.split` is the same function as `torch.split`). -/
def customizedListed : List Fn :=
  [f .cat, f .concat, f .concatenate, f .permute, m .permute, m .split, f .split, f .unbind, m .unbind, f .quantize_per_tensor,
   f .quantize_per_tensor_dynamic, f .fake_quantize_per_tensor_affine, f .frexp, m .frexp, f .conv1d, m .__getitem__, f .narrow, m .narrow,
   f .gather, m .gather, f .take_along_dim, m .take_along_dim, f .take, m .take, f .select, m .select, f .select_copy, f .index_select,
   m .index_select, f .masked_select, f .scatter_add, m .scatter_add, m .scatter_add_, f .scatter_reduce, m .scatter_reduce, m .scatter_reduce_,
   f .flatten, m .flatten, f .squeeze, m .squeeze, f .unsqueeze, m .unsqueeze]

/-- The functions written down in `DECOUPLE_FUNCTIONS`, func_coverage.py:80-90. -/
def decoupleListed : List Fn :=
  [f .argmax, f .argmin, f .argsort, f .allclose, m .allclose, f .quantize_per_channel, f .fake_quantize_per_channel_affine,
   f .fake_quantize_per_tensor_affine, f .gradient]

/-- The functions written down in `RECOUPLE_FUNCTIONS`, func_coverage.py:93-120. -/
def recoupleListed : List Fn :=
  [f .adjoint, f .sigmoid, m .sigmoid, f .transpose, f .«where», m .«where», f .scatter, m .scatter, m .scatter_, f .diagonal_scatter,
   m .diagonal_scatter, f .select_scatter, m .select_scatter, f .slice_scatter, m .slice_scatter, f .isclose, m .isclose, f .randint_like,
   f .heaviside, m .heaviside, f .dequantize, m .dequantize, f .polar, f .complex, f .real, f .imag]

/-- doc_scrape/lists/recouple-pointwise-ops-2023_06_19-16_13_42.txt, lines 1-32, added by func_coverage.py:121. -/
def recoupleOps : List Fn :=
  [f .bitwise_and, m .bitwise_and, f .bitwise_or, m .bitwise_or, f .bitwise_xor, m .bitwise_xor, f .bitwise_left_shift, m .bitwise_left_shift,
   f .bitwise_right_shift, m .bitwise_right_shift, f .copysign, m .copysign, f .exp2, m .exp2, f .fmod, m .fmod, f .lerp, m .lerp, f .logit,
   m .logit, f .mvlgamma, m .mvlgamma, f .nan_to_num, m .nan_to_num, f .remainder, m .remainder, f .sgn, m .sgn, f .sinc, m .sinc, f .xlogy,
   m .xlogy]

/-- The functions written down in `INPLACE_RECOUPLE_FUNCTIONS`, func_coverage.py:123-125. -/
def inplaceRecoupleListed : List Fn :=
  [m .heaviside_]

/-- doc_scrape/lists/inplace-recouple-pointwise-ops-2023_06_19-16_13_42.txt, lines 1-23, added by func_coverage.py:126. -/
def inplaceRecoupleOps : List Fn :=
  [m .bitwise_and_, m .bitwise_or_, m .bitwise_xor_, m .bitwise_left_shift_, m .bitwise_right_shift_, f .conj_physical_, m .conj_physical_,
   m .copysign_, f .exp2_, m .exp2_, m .fmod_, m .lerp_, f .logit_, m .logit_, m .mvlgamma_, f .nan_to_num_, m .nan_to_num_, m .remainder_, m .sgn_,
   f .sinc_, m .sinc_, f .xlogy_, m .xlogy_]

/-- The functions written down in `DEFAULT_VALID_FUNCTIONS`, func_coverage.py:60-76. -/
def defaultValidListed : List Fn :=
  [m .align_to, f .transpose, m .transpose, m .rename, f .clone, m .clone, f .rand_like, f .randn_like, f .zeros_like, f .ones_like, f .empty_like,
   f .full_like, m .__abs__, m .__neg__, m .__add__]

/-- doc_scrape/lists/default-valid-pointwise-ops-2023_06_19-16_13_42.txt, lines 1-166, added by func_coverage.py:77. -/
def defaultValidOps : List Fn :=
  [f .abs, m .abs, f .absolute, m .absolute, f .acos, m .acos, f .arccos, m .arccos, f .acosh, m .acosh, f .arccosh, m .arccosh, f .add, m .add,
   f .addcdiv, m .addcdiv, f .addcmul, m .addcmul, f .angle, m .angle, f .asin, m .asin, f .arcsin, m .arcsin, f .asinh, m .asinh, f .arcsinh,
   m .arcsinh, f .atan, m .atan, f .arctan, m .arctan, f .atanh, m .atanh, f .arctanh, m .arctanh, f .atan2, m .atan2, f .arctan2, m .arctan2,
   f .bitwise_not, m .bitwise_not, f .ceil, m .ceil, f .clamp, m .clamp, f .clip, m .clip, f .conj_physical, m .conj_physical, f .cos, m .cos,
   f .cosh, m .cosh, f .deg2rad, m .deg2rad, f .div, m .div, f .divide, m .divide, f .digamma, m .digamma, f .erf, m .erf, f .erfc, m .erfc,
   f .erfinv, m .erfinv, f .exp, m .exp, f .expm1, m .expm1, f .fix, m .fix, f .float_power, m .float_power, f .floor, m .floor, f .floor_divide,
   m .floor_divide, f .frac, m .frac, f .ldexp, m .ldexp, f .lgamma, m .lgamma, f .log, m .log, f .log10, m .log10, f .log1p, m .log1p, f .log2,
   m .log2, f .logaddexp, m .logaddexp, f .logaddexp2, m .logaddexp2, f .logical_and, m .logical_and, f .logical_not, m .logical_not, f .logical_or,
   m .logical_or, f .logical_xor, m .logical_xor, f .hypot, m .hypot, f .i0, m .i0, f .igamma, m .igamma, f .igammac, m .igammac, f .mul, m .mul,
   f .multiply, m .multiply, f .neg, m .neg, f .negative, m .negative, f .nextafter, m .nextafter, f .polygamma, m .polygamma, f .positive,
   m .positive, f .pow, m .pow, f .rad2deg, m .rad2deg, f .reciprocal, m .reciprocal, f .round, m .round, f .rsqrt, m .rsqrt, f .sigmoid,
   m .sigmoid, f .sign, m .sign, f .signbit, m .signbit, f .sin, m .sin, f .sinh, m .sinh, f .softmax, m .softmax, f .sqrt, m .sqrt, f .square,
   m .square, f .sub, m .sub, f .subtract, m .subtract, f .tan, m .tan, f .tanh, m .tanh, f .true_divide, m .true_divide, f .trunc, m .trunc]

/-- `g` and `h` are the same function. -/
def Fn.same : Fn → Fn → Bool
  | .f a, .f b => Nat.beq a.code b.code
  | .m a, .m b => Nat.beq a.code b.code
  | .getter a, .getter b => a == b
  | _, _ => false

/-- `g in table`. -/
def isIn (g : Fn) (table : List Fn) : Bool := table.any g.same

/-- Whether a function is in the table of a category, func_coverage.py:12-126. `GET_METHODS` (16, 56) holds the getter of every property. -/
def listed : Category → Fn → Bool
  | .valid, .getter _ => true
  | .valid, g => isIn g validListed || isIn g validOps
  | .customized, g => isIn g customizedListed
  | .decouple, g => isIn g decoupleListed
  | .recouple, g => isIn g recoupleListed || isIn g recoupleOps
  | .inplaceRecouple, g => isIn g inplaceRecoupleListed || isIn g inplaceRecoupleOps
  | .defaultValid, g => isIn g defaultValidListed || isIn g defaultValidOps

/-- The order in which the tables are consulted, tensor.py:792-814: the branch that is taken. A function in none of them is treated as default-valid (after a warning, 808-812). -/
def dispatch (g : Fn) : Category :=
  if listed .valid g then .valid
  else if listed .customized g then .customized
  else if listed .decouple g then .decouple
  else if listed .recouple g then .recouple
  else if listed .inplaceRecouple g then .inplaceRecouple
  else .defaultValid

/-- Whether the warning of tensor.py:808-812 is given. -/
def warns (g : Fn) : Bool := decide (dispatch g = .defaultValid) && !listed .defaultValid g

/-- The Python name of an operation. -/
def Op.name (o : Op) : String := Op.names.getD o.code ""

/-- What a call gives back. -/
inductive Returns where
  /-- the very object that was the first argument -/
  | same
  /-- another object -/
  | new
  deriving DecidableEq

/-- The object returned by an in-place method called on a StreamTensor, by the branch taken. 793: torch returns `self`, which is a StreamTensor already and is passed on. 796: the overrides of in-place methods (overrides.py:766-768, 803-807) return what `scatter_add` and `scatter_reduce` return,
which is a new object in every branch. 799: what torch returns for the decoupled argument. 802: `recouple` wraps it in a new StreamTensor (tensor.py:1050). 805: `inplace_recouple` returns its argument (1056). 814: as 793, with `out.meta` set (830-832). -/
def inplaceReturns : Category → Returns
  | .valid => .same
  | .customized => .new
  | .decouple => .new
  | .recouple => .new
  | .inplaceRecouple => .same
  | .defaultValid => .same

end DS.Disp
