/-
pe_base.cpp: the functions that say which directories an image has.
-/
import Verif.Model.Rva
namespace PE

/-- pe_base.cpp:549-552 `has_imports`. -/
def Image.hasImports (p : Image) : Res Bool := p.hasDir dirImport
/-- pe_base.cpp:555-558 `has_exports`. -/
def Image.hasExports (p : Image) : Res Bool := p.hasDir dirExport
/-- pe_base.cpp:561-564 `has_resources`. -/
def Image.hasResources (p : Image) : Res Bool := p.hasDir dirResource
/-- pe_base.cpp:567-570 `has_security`. -/
def Image.hasSecurity (p : Image) : Res Bool := p.hasDir dirSecurity
/-- pe_base.cpp:579-582 `has_tls`. -/
def Image.hasTls (p : Image) : Res Bool := p.hasDir dirTls
/-- pe_base.cpp:585-588 `has_config`. -/
def Image.hasConfig (p : Image) : Res Bool := p.hasDir dirLoadConfig
/-- pe_base.cpp:591-594 `has_bound_import`. -/
def Image.hasBoundImport (p : Image) : Res Bool := p.hasDir dirBoundImport
/-- pe_base.cpp:597-600 `has_delay_import`. -/
def Image.hasDelayImport (p : Image) : Res Bool := p.hasDir dirDelayImport
/-- pe_base.cpp:603-606 `is_dotnet`. -/
def Image.isDotnet (p : Image) : Res Bool := p.hasDir dirComDescriptor
/-- pe_base.cpp:609-612 `has_exception_directory`. -/
def Image.hasExceptionDirectory (p : Image) : Res Bool := p.hasDir dirException
/-- pe_base.cpp:615-618 `has_debug`. -/
def Image.hasDebug (p : Image) : Res Bool := p.hasDir dirDebug

end PE
