import Verif.Basic

/-!
# The soft token's tables: exported functions, callbacks, implementations (src/Crypto/SoftPkcs11)

Generated by tools/softtable.py, which stops if the body of an exported function is anything but one call through
`GlobalContext::get().callbacks()`.
-/

namespace Flame.SoftTable

/-- An exported function: number of parameters, the callback it calls and the parameter passed in each position. -/
structure Row where
  name : String
  arity : Nat
  callback : String
  args : List Nat

/-- An implementation: `stub` if its body is `unused(…)` for parameters and `return OK`. -/
structure Fn where
  name : String
  arity : Nat
  stub : Bool

/-- src/Crypto/SoftPkcs11/Interface/*.cpp -/
def interface : List Row := [
  -- DecryptFunctions.cpp 5
  ⟨"C_DecryptInit", 3, "decrypt.init", [0, 1, 2]⟩,
  -- DecryptFunctions.cpp 17
  ⟨"C_Decrypt", 5, "decrypt.full", [0, 1, 2, 3, 4]⟩,
  -- DecryptFunctions.cpp 33
  ⟨"C_DecryptUpdate", 5, "decrypt.update", [0, 1, 2, 3, 4]⟩,
  -- DecryptFunctions.cpp 49
  ⟨"C_DecryptFinal", 3, "decrypt.final", [0, 1, 2]⟩,
  -- DigestFunctions.cpp 5
  ⟨"C_DigestInit", 2, "digest.init", [0, 1]⟩,
  -- DigestFunctions.cpp 16
  ⟨"C_Digest", 5, "digest.full", [0, 1, 2, 3, 4]⟩,
  -- DigestFunctions.cpp 30
  ⟨"C_DigestUpdate", 3, "digest.update", [0, 1, 2]⟩,
  -- DigestFunctions.cpp 42
  ⟨"C_DigestKey", 2, "digest.key", [0, 1]⟩,
  -- DigestFunctions.cpp 53
  ⟨"C_DigestFinal", 3, "digest.final", [0, 1, 2]⟩,
  -- DualOperationFunctions.cpp 5
  ⟨"C_DigestEncryptUpdate", 5, "dualOperations.digestEncryptUpdate", [0, 1, 2, 3, 4]⟩,
  -- DualOperationFunctions.cpp 21
  ⟨"C_DecryptDigestUpdate", 5, "dualOperations.decryptDigestUpdate", [0, 1, 2, 3, 4]⟩,
  -- DualOperationFunctions.cpp 37
  ⟨"C_SignEncryptUpdate", 5, "dualOperations.signEncryptUpdate", [0, 1, 2, 3, 4]⟩,
  -- DualOperationFunctions.cpp 53
  ⟨"C_DecryptVerifyUpdate", 5, "dualOperations.decryptVerifyUpdate", [0, 1, 2, 3, 4]⟩,
  -- EncryptFunctions.cpp 5
  ⟨"C_EncryptInit", 3, "encrypt.init", [0, 1, 2]⟩,
  -- EncryptFunctions.cpp 17
  ⟨"C_Encrypt", 5, "encrypt.full", [0, 1, 2, 3, 4]⟩,
  -- EncryptFunctions.cpp 31
  ⟨"C_EncryptUpdate", 5, "encrypt.update", [0, 1, 2, 3, 4]⟩,
  -- EncryptFunctions.cpp 46
  ⟨"C_EncryptFinal", 3, "encrypt.final", [0, 1, 2]⟩,
  -- GeneralPurposeFunctions.cpp 5
  ⟨"C_Initialize", 1, "generalPurpose.initialize", [0]⟩,
  -- GeneralPurposeFunctions.cpp 13
  ⟨"C_Finalize", 1, "generalPurpose.finalize", [0]⟩,
  -- GeneralPurposeFunctions.cpp 21
  ⟨"C_GetInfo", 1, "generalPurpose.getInfo", [0]⟩,
  -- GeneralPurposeFunctions.cpp 29
  ⟨"C_GetFunctionList", 1, "generalPurpose.getFunctionList", [0]⟩,
  -- GeneralPurposeFunctions.cpp 39
  ⟨"C_GetInterfaceList", 2, "generalPurpose.getInterfaceList", [0, 1]⟩,
  -- GeneralPurposeFunctions.cpp 47
  ⟨"C_GetInterface", 4, "generalPurpose.getInterface", [0, 1, 2, 3]⟩,
  -- KeyFunctions.cpp 5
  ⟨"C_GenerateKey", 5, "key.generateKey", [0, 1, 2, 3, 4]⟩,
  -- KeyFunctions.cpp 19
  ⟨"C_GenerateKeyPair", 8, "key.generateKeyPair", [0, 1, 2, 3, 4, 5, 6, 7]⟩,
  -- KeyFunctions.cpp 41
  ⟨"C_WrapKey", 6, "key.wrapKey", [0, 1, 2, 3, 4, 5]⟩,
  -- KeyFunctions.cpp 60
  ⟨"C_UnwrapKey", 8, "key.unwrapKey", [0, 1, 2, 3, 4, 5, 6, 7]⟩,
  -- KeyFunctions.cpp 81
  ⟨"C_DeriveKey", 6, "key.deriveKey", [0, 1, 2, 3, 4, 5]⟩,
  -- ManagementFunctions.cpp 5
  ⟨"C_GetSlotList", 3, "management.getSlotList", [0, 1, 2]⟩,
  -- ManagementFunctions.cpp 17
  ⟨"C_GetSlotInfo", 2, "management.getSlotInfo", [0, 1]⟩,
  -- ManagementFunctions.cpp 28
  ⟨"C_GetTokenInfo", 2, "management.getTokenInfo", [0, 1]⟩,
  -- ManagementFunctions.cpp 39
  ⟨"C_GetMechanismList", 3, "management.getMechanismList", [0, 1, 2]⟩,
  -- ManagementFunctions.cpp 51
  ⟨"C_GetMechanismInfo", 3, "management.getMechanismInfo", [0, 1, 2]⟩,
  -- ManagementFunctions.cpp 63
  ⟨"C_InitToken", 4, "management.initToken", [0, 1, 2, 3]⟩,
  -- ManagementFunctions.cpp 76
  ⟨"C_InitPIN", 3, "management.initPin", [0, 1, 2]⟩,
  -- ManagementFunctions.cpp 88
  ⟨"C_SetPIN", 5, "management.setPin", [0, 1, 2, 3, 4]⟩,
  -- MessageDecryptFunctions.cpp 4
  ⟨"C_MessageDecryptInit", 3, "message.decrypt.init", [0, 1, 2]⟩,
  -- MessageDecryptFunctions.cpp 17
  ⟨"C_DecryptMessage", 9, "message.decrypt.full", [0, 1, 2, 3, 4, 5, 6, 7, 8]⟩,
  -- MessageDecryptFunctions.cpp 41
  ⟨"C_DecryptMessageBegin", 5, "message.decrypt.begin", [0, 1, 2, 3, 4]⟩,
  -- MessageDecryptFunctions.cpp 59
  ⟨"C_DecryptMessageNext", 8, "message.decrypt.next", [0, 1, 2, 3, 4, 5, 6, 7]⟩,
  -- MessageDecryptFunctions.cpp 82
  ⟨"C_MessageDecryptFinal", 1, "message.decrypt.final", [0]⟩,
  -- MessageEncryptFunctions.cpp 4
  ⟨"C_MessageEncryptInit", 3, "message.encrypt.init", [0, 1, 2]⟩,
  -- MessageEncryptFunctions.cpp 17
  ⟨"C_EncryptMessage", 9, "message.encrypt.full", [0, 1, 2, 3, 4, 5, 6, 7, 8]⟩,
  -- MessageEncryptFunctions.cpp 41
  ⟨"C_EncryptMessageBegin", 5, "message.encrypt.begin", [0, 1, 2, 3, 4]⟩,
  -- MessageEncryptFunctions.cpp 59
  ⟨"C_EncryptMessageNext", 8, "message.encrypt.next", [0, 1, 2, 3, 4, 5, 6, 7]⟩,
  -- MessageEncryptFunctions.cpp 82
  ⟨"C_MessageEncryptFinal", 1, "message.encrypt.final", [0]⟩,
  -- MessageSignFunctions.cpp 4
  ⟨"C_MessageSignInit", 3, "message.sign.init", [0, 1, 2]⟩,
  -- MessageSignFunctions.cpp 17
  ⟨"C_SignMessage", 7, "message.sign.full", [0, 1, 2, 3, 4, 5, 6]⟩,
  -- MessageSignFunctions.cpp 38
  ⟨"C_SignMessageBegin", 3, "message.sign.begin", [0, 1, 2]⟩,
  -- MessageSignFunctions.cpp 51
  ⟨"C_SignMessageNext", 7, "message.sign.next", [0, 1, 2, 3, 4, 5, 6]⟩,
  -- MessageSignFunctions.cpp 72
  ⟨"C_MessageSignFinal", 1, "message.sign.final", [0]⟩,
  -- MessageVerifyFunctions.cpp 4
  ⟨"C_MessageVerifyInit", 3, "message.verify.init", [0, 1, 2]⟩,
  -- MessageVerifyFunctions.cpp 17
  ⟨"C_VerifyMessage", 7, "message.verify.full", [0, 1, 2, 3, 4, 5, 6]⟩,
  -- MessageVerifyFunctions.cpp 38
  ⟨"C_VerifyMessageBegin", 3, "message.verify.begin", [0, 1, 2]⟩,
  -- MessageVerifyFunctions.cpp 51
  ⟨"C_VerifyMessageNext", 7, "message.verify.next", [0, 1, 2, 3, 4, 5, 6]⟩,
  -- MessageVerifyFunctions.cpp 72
  ⟨"C_MessageVerifyFinal", 1, "message.verify.final", [0]⟩,
  -- ObjectFunctions.cpp 5
  ⟨"C_CreateObject", 4, "object.create", [0, 1, 2, 3]⟩,
  -- ObjectFunctions.cpp 18
  ⟨"C_CopyObject", 5, "object.copy", [0, 1, 2, 3, 4]⟩,
  -- ObjectFunctions.cpp 32
  ⟨"C_DestroyObject", 2, "object.destroy", [0, 1]⟩,
  -- ObjectFunctions.cpp 43
  ⟨"C_GetObjectSize", 3, "object.getSize", [0, 1, 2]⟩,
  -- ObjectFunctions.cpp 55
  ⟨"C_GetAttributeValue", 4, "object.getAttributeValue", [0, 1, 2, 3]⟩,
  -- ObjectFunctions.cpp 68
  ⟨"C_SetAttributeValue", 4, "object.setAttributeValue", [0, 1, 2, 3]⟩,
  -- ObjectFunctions.cpp 81
  ⟨"C_FindObjectsInit", 3, "object.findInit", [0, 1, 2]⟩,
  -- ObjectFunctions.cpp 93
  ⟨"C_FindObjects", 4, "object.find", [0, 1, 2, 3]⟩,
  -- ObjectFunctions.cpp 106
  ⟨"C_FindObjectsFinal", 1, "object.findFinal", [0]⟩,
  -- ParallelManagementFunctions.cpp 5
  ⟨"C_GetFunctionStatus", 1, "parallelManagement.getFunctionStatus", [0]⟩,
  -- ParallelManagementFunctions.cpp 13
  ⟨"C_CancelFunction", 1, "parallelManagement.cancelfunciton", [0]⟩,
  -- ParallelManagementFunctions.cpp 21
  ⟨"C_WaitForSlotEvent", 3, "parallelManagement.waitForSlotEvent", [0, 1, 2]⟩,
  -- RandomGeneration.cpp 5
  ⟨"C_SeedRandom", 3, "randomGeneration.seedRandom", [0, 1, 2]⟩,
  -- RandomGeneration.cpp 17
  ⟨"C_GenerateRandom", 3, "randomGeneration.generateRandom", [0, 1, 2]⟩,
  -- SessionFunctions.cpp 5
  ⟨"C_OpenSession", 5, "session.open", [0, 1, 2, 3, 4]⟩,
  -- SessionFunctions.cpp 19
  ⟨"C_CloseSession", 1, "session.close", [0]⟩,
  -- SessionFunctions.cpp 27
  ⟨"C_CloseAllSessions", 1, "session.closeAll", [0]⟩,
  -- SessionFunctions.cpp 35
  ⟨"C_GetSessionInfo", 2, "session.getInfo", [0, 1]⟩,
  -- SessionFunctions.cpp 46
  ⟨"C_GetOperationState", 3, "session.getOperationState", [0, 1, 2]⟩,
  -- SessionFunctions.cpp 58
  ⟨"C_SetOperationState", 5, "session.setOperationState", [0, 1, 2, 3, 4]⟩,
  -- SessionFunctions.cpp 75
  ⟨"C_Login", 4, "session.login", [0, 1, 2, 3]⟩,
  -- SessionFunctions.cpp 88
  ⟨"C_Logout", 1, "session.logout", [0]⟩,
  -- SessionFunctions.cpp 98
  ⟨"C_LoginUser", 6, "session.loginUser", [0, 1, 2, 3, 4, 5]⟩,
  -- SessionFunctions.cpp 112
  ⟨"C_SessionCancel", 2, "session.sessionCancel", [0, 1]⟩,
  -- SignFunctions.cpp 5
  ⟨"C_SignInit", 3, "sign.init", [0, 1, 2]⟩,
  -- SignFunctions.cpp 17
  ⟨"C_Sign", 5, "sign.full", [0, 1, 2, 3, 4]⟩,
  -- SignFunctions.cpp 31
  ⟨"C_SignUpdate", 3, "sign.update", [0, 1, 2]⟩,
  -- SignFunctions.cpp 43
  ⟨"C_SignFinal", 3, "sign.final", [0, 1, 2]⟩,
  -- SignFunctions.cpp 55
  ⟨"C_SignRecoverInit", 3, "sign.recoverInit", [0, 1, 2]⟩,
  -- SignFunctions.cpp 67
  ⟨"C_SignRecover", 5, "sign.recoverFull", [0, 1, 2, 3, 4]⟩,
  -- VerifyFunctions.cpp 5
  ⟨"C_VerifyInit", 3, "verify.init", [0, 1, 2]⟩,
  -- VerifyFunctions.cpp 17
  ⟨"C_Verify", 5, "verify.full", [0, 1, 2, 3, 4]⟩,
  -- VerifyFunctions.cpp 31
  ⟨"C_VerifyUpdate", 3, "verify.update", [0, 1, 2]⟩,
  -- VerifyFunctions.cpp 43
  ⟨"C_VerifyFinal", 3, "verify.final", [0, 1, 2]⟩,
  -- VerifyFunctions.cpp 55
  ⟨"C_VerifyRecoverInit", 3, "verify.recoverInit", [0, 1, 2]⟩,
  -- VerifyFunctions.cpp 67
  ⟨"C_VerifyRecover", 5, "verify.recoverFull", [0, 1, 2, 3, 4]⟩]

/-- Callbacks.hpp 22-293: what each member of `CallbackAggregator` is initialised with. -/
def bindings : List (String × String) := [
  ("generalPurpose.initialize", "general_purpose::initialize"),
  ("generalPurpose.finalize", "general_purpose::finalize"),
  ("generalPurpose.getInfo", "general_purpose::getInfo"),
  ("generalPurpose.getFunctionList", "general_purpose::getFunctionList"),
  ("generalPurpose.getInterfaceList", "general_purpose::getIterfaceList"),
  ("generalPurpose.getInterface", "general_purpose::getIterface"),
  ("management.getSlotList", "management::getSlotList"),
  ("management.getSlotInfo", "management::getSlotInfo"),
  ("management.getTokenInfo", "management::getTokenInfo"),
  ("management.getMechanismList", "management::getMechanismList"),
  ("management.getMechanismInfo", "management::getMechanismInfo"),
  ("management.initToken", "management::initToken"),
  ("management.initPin", "management::initPin"),
  ("management.setPin", "management::setPin"),
  ("session.open", "session::open"),
  ("session.close", "session::close"),
  ("session.closeAll", "session::closeAll"),
  ("session.getInfo", "session::getInfo"),
  ("session.getOperationState", "session::getOperationState"),
  ("session.setOperationState", "session::setOperationState"),
  ("session.login", "session::login"),
  ("session.logout", "session::logout"),
  ("session.loginUser", "session::loginUser"),
  ("session.sessionCancel", "session::sessionCancel"),
  ("object.create", "object::create"),
  ("object.copy", "object::copy"),
  ("object.destroy", "object::destroy"),
  ("object.getSize", "object::getSize"),
  ("object.getAttributeValue", "object::getAttributeValue"),
  ("object.setAttributeValue", "object::setAttributeValue"),
  ("object.findInit", "object::findInit"),
  ("object.find", "object::find"),
  ("object.findFinal", "object::findFinal"),
  ("encrypt.init", "encrypt::init"),
  ("encrypt.update", "encrypt::update"),
  ("encrypt.final", "encrypt::final"),
  ("encrypt.full", "encrypt::full"),
  ("decrypt.init", "decrypt::init"),
  ("decrypt.update", "decrypt::update"),
  ("decrypt.final", "decrypt::final"),
  ("decrypt.full", "decrypt::full"),
  ("digest.init", "digest::init"),
  ("digest.update", "digest::update"),
  ("digest.final", "digest::final"),
  ("digest.full", "digest::full"),
  ("digest.key", "digest::key"),
  ("sign.init", "sign::init"),
  ("sign.update", "sign::update"),
  ("sign.final", "sign::final"),
  ("sign.full", "sign::full"),
  ("sign.recoverInit", "sign::recover::init"),
  ("sign.recoverFull", "sign::recover::full"),
  ("verify.init", "verify::init"),
  ("verify.update", "verify::update"),
  ("verify.final", "verify::final"),
  ("verify.full", "verify::full"),
  ("verify.recoverInit", "verify::recover::init"),
  ("verify.recoverFull", "verify::recover::full"),
  ("dualOperations.digestEncryptUpdate", "dual_operations::digestEncryptUpdate"),
  ("dualOperations.decryptDigestUpdate", "dual_operations::decryptDigestUpdate"),
  ("dualOperations.signEncryptUpdate", "dual_operations::signEncryptUpdate"),
  ("dualOperations.decryptVerifyUpdate", "dual_operations::decryptVerifyUpdate"),
  ("key.generateKey", "key::generateKey"),
  ("key.generateKeyPair", "key::generateKeyPair"),
  ("key.wrapKey", "key::wrapKey"),
  ("key.unwrapKey", "key::unwrapKey"),
  ("key.deriveKey", "key::deriveKey"),
  ("parallelManagement.getFunctionStatus", "parallel_management::getFunctionStatus"),
  ("parallelManagement.cancelfunciton", "parallel_management::cancelFunction"),
  ("parallelManagement.waitForSlotEvent", "parallel_management::waitForSlotEvent"),
  ("randomGeneration.seedRandom", "random_generation::seedRandom"),
  ("randomGeneration.generateRandom", "random_generation::generateRandom"),
  ("message.encrypt.init", "message::encryptInit"),
  ("message.encrypt.full", "message::encrypt"),
  ("message.encrypt.begin", "message::encryptBegin"),
  ("message.encrypt.next", "message::encryptNext"),
  ("message.encrypt.final", "message::encryptFinal"),
  ("message.decrypt.init", "message::decryptInit"),
  ("message.decrypt.full", "message::decrypt"),
  ("message.decrypt.begin", "message::decryptBegin"),
  ("message.decrypt.next", "message::decryptNext"),
  ("message.decrypt.final", "message::decryptFinal"),
  ("message.sign.init", "message::signInit"),
  ("message.sign.full", "message::sign"),
  ("message.sign.begin", "message::signBegin"),
  ("message.sign.next", "message::signNext"),
  ("message.sign.final", "message::signFinal"),
  ("message.verify.init", "message::verifyInit"),
  ("message.verify.full", "message::verify"),
  ("message.verify.begin", "message::verifyBegin"),
  ("message.verify.next", "message::verifyNext"),
  ("message.verify.final", "message::verifyFinal")]

/-- src/Crypto/SoftPkcs11/Functions/*.cpp -/
def functions : List Fn := [
  -- DecryptFunctions.cpp 12
  ⟨"decrypt::init", 3, true⟩,
  -- DecryptFunctions.cpp 25
  ⟨"decrypt::update", 5, true⟩,
  -- DecryptFunctions.cpp 42
  ⟨"decrypt::final", 3, true⟩,
  -- DecryptFunctions.cpp 55
  ⟨"decrypt::full", 5, true⟩,
  -- DigestFunctions.cpp 12
  ⟨"digest::init", 2, true⟩,
  -- DigestFunctions.cpp 23
  ⟨"digest::update", 3, true⟩,
  -- DigestFunctions.cpp 36
  ⟨"digest::final", 3, true⟩,
  -- DigestFunctions.cpp 49
  ⟨"digest::full", 5, true⟩,
  -- DigestFunctions.cpp 66
  ⟨"digest::key", 2, true⟩,
  -- DualOperationFunctions.cpp 12
  ⟨"dual_operations::digestEncryptUpdate", 5, true⟩,
  -- DualOperationFunctions.cpp 29
  ⟨"dual_operations::decryptDigestUpdate", 5, true⟩,
  -- DualOperationFunctions.cpp 46
  ⟨"dual_operations::signEncryptUpdate", 5, true⟩,
  -- DualOperationFunctions.cpp 63
  ⟨"dual_operations::decryptVerifyUpdate", 5, true⟩,
  -- EncryptFunctions.cpp 12
  ⟨"encrypt::init", 3, true⟩,
  -- EncryptFunctions.cpp 25
  ⟨"encrypt::update", 5, true⟩,
  -- EncryptFunctions.cpp 42
  ⟨"encrypt::final", 3, true⟩,
  -- EncryptFunctions.cpp 55
  ⟨"encrypt::full", 5, true⟩,
  -- GeneralPurposeFunctions.cpp 16
  ⟨"general_purpose::initialize", 1, false⟩,
  -- GeneralPurposeFunctions.cpp 41
  ⟨"general_purpose::finalize", 1, true⟩,
  -- GeneralPurposeFunctions.cpp 47
  ⟨"general_purpose::getInfo", 1, false⟩,
  -- GeneralPurposeFunctions.cpp 65
  ⟨"general_purpose::getFunctionList", 1, false⟩,
  -- GeneralPurposeFunctions.cpp 78
  ⟨"general_purpose::getIterfaceList", 2, false⟩,
  -- GeneralPurposeFunctions.cpp 96
  ⟨"general_purpose::getIterface", 4, false⟩,
  -- KeyFunctions.cpp 12
  ⟨"key::generateKey", 5, true⟩,
  -- KeyFunctions.cpp 29
  ⟨"key::generateKeyPair", 8, true⟩,
  -- KeyFunctions.cpp 52
  ⟨"key::wrapKey", 6, true⟩,
  -- KeyFunctions.cpp 71
  ⟨"key::unwrapKey", 8, true⟩,
  -- KeyFunctions.cpp 94
  ⟨"key::deriveKey", 6, true⟩,
  -- ManagementFunctions.cpp 12
  ⟨"management::getSlotList", 3, true⟩,
  -- ManagementFunctions.cpp 25
  ⟨"management::getSlotInfo", 2, true⟩,
  -- ManagementFunctions.cpp 36
  ⟨"management::getTokenInfo", 2, true⟩,
  -- ManagementFunctions.cpp 47
  ⟨"management::getMechanismList", 3, true⟩,
  -- ManagementFunctions.cpp 60
  ⟨"management::getMechanismInfo", 3, true⟩,
  -- ManagementFunctions.cpp 73
  ⟨"management::initToken", 4, true⟩,
  -- ManagementFunctions.cpp 88
  ⟨"management::initPin", 3, true⟩,
  -- ManagementFunctions.cpp 101
  ⟨"management::setPin", 5, true⟩,
  -- MessageDecryptFunctions.cpp 12
  ⟨"message::decryptInit", 3, true⟩,
  -- MessageDecryptFunctions.cpp 25
  ⟨"message::decrypt", 9, true⟩,
  -- MessageDecryptFunctions.cpp 50
  ⟨"message::decryptBegin", 5, true⟩,
  -- MessageDecryptFunctions.cpp 67
  ⟨"message::decryptNext", 8, true⟩,
  -- MessageDecryptFunctions.cpp 90
  ⟨"message::decryptFinal", 1, true⟩,
  -- MessageEncryptFunctions.cpp 12
  ⟨"message::encryptInit", 3, true⟩,
  -- MessageEncryptFunctions.cpp 25
  ⟨"message::encrypt", 9, true⟩,
  -- MessageEncryptFunctions.cpp 50
  ⟨"message::encryptBegin", 5, true⟩,
  -- MessageEncryptFunctions.cpp 67
  ⟨"message::encryptNext", 8, true⟩,
  -- MessageEncryptFunctions.cpp 90
  ⟨"message::encryptFinal", 1, true⟩,
  -- MessageSignFunctions.cpp 12
  ⟨"message::signInit", 3, true⟩,
  -- MessageSignFunctions.cpp 25
  ⟨"message::sign", 7, true⟩,
  -- MessageSignFunctions.cpp 46
  ⟨"message::signBegin", 3, true⟩,
  -- MessageSignFunctions.cpp 59
  ⟨"message::signNext", 7, true⟩,
  -- MessageSignFunctions.cpp 80
  ⟨"message::signFinal", 1, true⟩,
  -- MessageVerifyFunctions.cpp 12
  ⟨"message::verifyInit", 3, true⟩,
  -- MessageVerifyFunctions.cpp 25
  ⟨"message::verify", 7, true⟩,
  -- MessageVerifyFunctions.cpp 46
  ⟨"message::verifyBegin", 3, true⟩,
  -- MessageVerifyFunctions.cpp 59
  ⟨"message::verifyNext", 7, true⟩,
  -- MessageVerifyFunctions.cpp 80
  ⟨"message::verifyFinal", 1, true⟩,
  -- ObjectFunctions.cpp 12
  ⟨"object::create", 4, true⟩,
  -- ObjectFunctions.cpp 27
  ⟨"object::copy", 5, true⟩,
  -- ObjectFunctions.cpp 44
  ⟨"object::destroy", 2, true⟩,
  -- ObjectFunctions.cpp 55
  ⟨"object::getSize", 3, true⟩,
  -- ObjectFunctions.cpp 68
  ⟨"object::getAttributeValue", 4, true⟩,
  -- ObjectFunctions.cpp 83
  ⟨"object::setAttributeValue", 4, true⟩,
  -- ObjectFunctions.cpp 98
  ⟨"object::findInit", 3, true⟩,
  -- ObjectFunctions.cpp 111
  ⟨"object::find", 4, true⟩,
  -- ObjectFunctions.cpp 126
  ⟨"object::findFinal", 1, true⟩,
  -- ParallelManagementFunctions.cpp 12
  ⟨"parallel_management::getFunctionStatus", 1, true⟩,
  -- ParallelManagementFunctions.cpp 21
  ⟨"parallel_management::cancelFunction", 1, true⟩,
  -- ParallelManagementFunctions.cpp 30
  ⟨"parallel_management::waitForSlotEvent", 3, true⟩,
  -- RandomGeneration.cpp 12
  ⟨"random_generation::seedRandom", 3, true⟩,
  -- RandomGeneration.cpp 25
  ⟨"random_generation::generateRandom", 3, true⟩,
  -- SessionFunctions.cpp 12
  ⟨"session::open", 5, true⟩,
  -- SessionFunctions.cpp 29
  ⟨"session::close", 1, true⟩,
  -- SessionFunctions.cpp 36
  ⟨"session::closeAll", 1, true⟩,
  -- SessionFunctions.cpp 43
  ⟨"session::getInfo", 2, true⟩,
  -- SessionFunctions.cpp 54
  ⟨"session::getOperationState", 3, true⟩,
  -- SessionFunctions.cpp 67
  ⟨"session::setOperationState", 5, true⟩,
  -- SessionFunctions.cpp 84
  ⟨"session::login", 4, true⟩,
  -- SessionFunctions.cpp 99
  ⟨"session::logout", 1, true⟩,
  -- SessionFunctions.cpp 108
  ⟨"session::loginUser", 6, true⟩,
  -- SessionFunctions.cpp 127
  ⟨"session::sessionCancel", 2, true⟩,
  -- SignFunctions.cpp 12
  ⟨"sign::init", 3, true⟩,
  -- SignFunctions.cpp 25
  ⟨"sign::update", 3, true⟩,
  -- SignFunctions.cpp 38
  ⟨"sign::final", 3, true⟩,
  -- SignFunctions.cpp 51
  ⟨"sign::full", 5, true⟩,
  -- SignFunctions.cpp 71
  ⟨"sign::recover::init", 3, true⟩,
  -- SignFunctions.cpp 84
  ⟨"sign::recover::full", 5, true⟩,
  -- VerifyFunctions.cpp 12
  ⟨"verify::init", 3, true⟩,
  -- VerifyFunctions.cpp 25
  ⟨"verify::update", 3, true⟩,
  -- VerifyFunctions.cpp 38
  ⟨"verify::final", 3, true⟩,
  -- VerifyFunctions.cpp 51
  ⟨"verify::full", 5, true⟩,
  -- VerifyFunctions.cpp 71
  ⟨"verify::recover::init", 3, true⟩,
  -- VerifyFunctions.cpp 84
  ⟨"verify::recover::full", 5, true⟩]

end Flame.SoftTable
