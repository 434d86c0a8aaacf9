# Functions of /repo/src/pe_lib and the definitions of the model

Generated by tools/coverage.py -m from the citations in lean/Verif/Model. 822 of 822 functions are modelled. Files that
contain only declarations, constants and types (headers) are not listed; the layout of the structures they declare is part of the
definitions that read and write them.

## entropy.cpp

| lines | function | model |
|---|---|---|
| 8-14 | `entropy_calculator::calculate_entropy` | `Entropy.entropyOfSection` |
| 17-39 | `entropy_calculator::calculate_entropy` | `Entropy.entropyOfStream`, `StreamUse`, `StreamUse.entropyS`, `StreamUse.getBytesS` |
| 42-54 | `entropy_calculator::calculate_entropy` | `Entropy.entropyOfData`, `Entropy.byteCount` |
| 57-74 | `entropy_calculator::calculate_entropy` | `Entropy.entropyOfImage`, `Entropy.imageByteCount`, `Entropy.entropyOfCounts` |
| 77-89 | `entropy_calculator::calculate_entropy` | `Entropy.entropyOfCounts` |

## file_version_info.cpp

| lines | function | model |
|---|---|---|
| 9-32 | `file_version_info::file_version_info` | `Plain.fileVersionInfoC`, `VersionInfo.viFixed`, `FileVer.FileVer.isSet` |
| 35-38 | `file_version_info::is_prerelease` | `FileVer.FileVer.isSet` |
| 41-44 | `file_version_info::is_patched` | `FileVer.FileVer.isSet` |
| 47-50 | `file_version_info::is_private_build` | `FileVer.FileVer.isSet` |
| 53-56 | `file_version_info::is_special_build` | `FileVer.FileVer.isSet` |
| 59-62 | `file_version_info::is_info_inferred` | `FileVer.FileVer.isSet` |
| 65-68 | `file_version_info::get_file_flags` | `Plain.fileVersionInfoC` |
| 71-74 | `file_version_info::get_file_version_ms` | `Plain.fileVersionInfoC` |
| 77-80 | `file_version_info::get_file_version_ls` | `Plain.fileVersionInfoC` |
| 83-86 | `file_version_info::get_product_version_ms` | `Plain.fileVersionInfoC` |
| 89-92 | `file_version_info::get_product_version_ls` | `Plain.fileVersionInfoC` |
| 95-98 | `file_version_info::get_file_os_raw` | `Plain.fileVersionInfoC` |
| 101-150 | `file_version_info::get_file_os` | `FileVer.FileVer.getOs` |
| 153-156 | `file_version_info::get_file_type_raw` | `Plain.fileVersionInfoC` |
| 159-184 | `file_version_info::get_file_type` | `FileVer.FileVer.getType` |
| 187-190 | `file_version_info::get_file_subtype` | `Plain.fileVersionInfoC` |
| 193-196 | `file_version_info::get_file_date_ms` | `Plain.fileVersionInfoC` |
| 199-202 | `file_version_info::get_file_date_ls` | `Plain.fileVersionInfoC` |
| 205-208 | `file_version_info::set_file_flag` | `FileVer.FileVer.setFlag` |
| 211-214 | `file_version_info::clear_file_flag` | `FileVer.FileVer.setFlag` |
| 217-220 | `file_version_info::set_file_flag` | `FileVer.FileVer.setFlag` |
| 223-226 | `file_version_info::set_debug` | `FileVer.FileVer.setFlag` |
| 229-232 | `file_version_info::set_prerelease` | `FileVer.FileVer.setFlag` |
| 235-238 | `file_version_info::set_patched` | `FileVer.FileVer.setFlag` |
| 241-244 | `file_version_info::set_private_build` | `FileVer.FileVer.setFlag` |
| 247-250 | `file_version_info::set_special_build` | `FileVer.FileVer.setFlag` |
| 253-256 | `file_version_info::set_info_inferred` | `FileVer.FileVer.setFlag` |
| 259-262 | `file_version_info::set_file_flags` | `Plain.fileVersionInfoC` |
| 265-268 | `file_version_info::set_file_version_ms` | `Plain.fileVersionInfoC` |
| 271-274 | `file_version_info::set_file_version_ls` | `Plain.fileVersionInfoC` |
| 277-280 | `file_version_info::set_product_version_ms` | `Plain.fileVersionInfoC` |
| 283-286 | `file_version_info::set_product_version_ls` | `Plain.fileVersionInfoC` |
| 289-292 | `file_version_info::set_file_os_raw` | `Plain.fileVersionInfoC` |
| 295-359 | `file_version_info::set_file_os` | `FileVer.FileVer.setOs` |
| 362-365 | `file_version_info::set_file_type_raw` | `Plain.fileVersionInfoC` |
| 368-400 | `file_version_info::set_file_type` | `FileVer.FileVer.setType` |
| 403-406 | `file_version_info::set_file_subtype` | `Plain.fileVersionInfoC` |
| 409-412 | `file_version_info::set_file_date_ms` | `Plain.fileVersionInfoC` |
| 415-418 | `file_version_info::set_file_date_ls` | `Plain.fileVersionInfoC` |

## message_table.cpp

| lines | function | model |
|---|---|---|
| 7-16 | `message_table_item::message_table_item` | `Plain.messageTableItemC`, `ResourceData.Message` |
| 19-23 | `message_table_item::message_table_item` | `Plain.messageTableItemC`, `ResourceData.Message` |
| 26-29 | `message_table_item::is_unicode` | `Plain.messageTableItemC` |
| 32-35 | `message_table_item::get_ansi_string` | `Plain.messageTableItemC` |
| 38-41 | `message_table_item::get_unicode_string` | `Plain.messageTableItemC` |
| 44-50 | `message_table_item::set_string` | `Plain.Cls.stmt`, `Plain.Cls.exec`, `Plain.Cls.call`, `Plain.messageTableItemC` |
| 53-59 | `message_table_item::set_string` | `Plain.Cls.call`, `Plain.messageTableItemC` |

## pe_base.cpp

| lines | function | model |
|---|---|---|
| 17-46 | `pe_base::pe_base` | `Load`, `Load.load`, `Objects.PState.step`, `Objects`, `StreamState`, `StreamState.openS`, ... |
| 48-75 | `pe_base::pe_base` | `Image.createImage`, `Objects.PState.step`, `Objects`, `Image.createDos` |
| 77-87 | `pe_base::pe_base` | `Objects.PState.step`, `Objects` |
| 89-102 | `pe_base::operator=` | `Objects.PState.step`, `Objects` |
| 104-107 | `pe_base::~pe_base` | `Objects.PState.step`, `Objects` |
| 110-113 | `pe_base::get_dos_header` | `Stub.Image.getDosHeader` |
| 116-119 | `pe_base::get_dos_header` | `Stub.Image.getDosHeader` |
| 122-125 | `pe_base::get_pe_header_start` | `Stub.Image.peHeaderStart` |
| 128-131 | `pe_base::strip_stub_overlay` | `Stub.Image.stripStub` |
| 134-138 | `pe_base::fill_stub_overlay` | `Stub.Image.fillStub` |
| 141-144 | `pe_base::set_stub_overlay` | `Stub.Image.setStub` |
| 147-150 | `pe_base::get_stub_overlay` | `Stub.Image.getStub` |
| 153-157 | `pe_base::realign_all_sections` | `Edit.Image.realignFrom`, `Failing.realignFromM` |
| 160-163 | `pe_base::get_number_of_sections` | `Accessors.NtHdr.getAcc` |
| 166-171 | `pe_base::update_number_of_sections` | `Accessors.NtHdr.getAcc` |
| 174-177 | `pe_base::get_section_alignment` | `Accessors.NtHdr.getAcc` |
| 180-183 | `pe_base::get_image_sections` | `Accessors.NtHdr.getAcc` |
| 186-189 | `pe_base::get_image_sections` | `Image.Image` |
| 192-225 | `pe_base::realign_section` | `Edit.Image.realignSection`, `Failing.realignSectionM`, `Mapped.MImage.realignSection`, `Mapped.MImage.change`, `Failing.realignEndM` |
| 228-231 | `pe_base::get_file_alignment` | `Accessors.NtHdr.getAcc` |
| 234-248 | `pe_base::set_file_alignment` | `Edit.Image.setFileAlignment`, `Failing.setFileAlignmentM` |
| 251-254 | `pe_base::get_size_of_image` | `Accessors.NtHdr.getAcc` |
| 257-260 | `pe_base::get_ep` | `Accessors.NtHdr.getAcc` |
| 263-266 | `pe_base::set_ep` | `Accessors.NtHdr.getAcc` |
| 269-272 | `pe_base::get_number_of_rvas_and_sizes` | `Accessors.NtHdr.getAcc` |
| 275-278 | `pe_base::set_number_of_rvas_and_sizes` | `Accessors.NtHdr.getAcc` |
| 281-284 | `pe_base::get_characteristics` | `Accessors.NtHdr.getAcc` |
| 287-290 | `pe_base::set_characteristics` | `Accessors.NtHdr.setAcc` |
| 293-305 | `pe_base::section_from_rva` | `Mapped.MImage.idxFromRva`, `Rva.Image.secIdxFromRva`, `Rva.Sec.containsRva` |
| 308-320 | `pe_base::section_from_rva` | `Mapped.MImage.idxFromRva`, `Rva.Image.sectionFromRva`, `Rva.Sec.containsRva` |
| 323-326 | `pe_base::section_from_directory` | `Accessors.Image.sectionFromDirectory` |
| 329-332 | `pe_base::section_from_directory` | `Accessors.Image.sectionFromDirectory` |
| 335-360 | `pe_base::set_section_virtual_size` | `Edit.Image.setSectionVirtualSize`, `Failing.setVirtualSizeM`, `Mapped.MImage.setSectionVirtualSize`, `Mapped.MImage.change`, `Failing.newVsizeM` |
| 365-388 | `pe_base::expand_section` | `Edit.Image.expandSection`, `Failing.expandM`, `Mapped.MImage.expandSection`, `Mapped.MImage.change`, `Tls.Image.expandLeft`, `Failing.expandToM` |
| 391-398 | `pe_base::update_image_size` | `Edit.Image.updateImageSize`, `Mapped.MImage.updateImageSize`, `Mapped.MImage.change` |
| 401-404 | `pe_base::get_checksum` | `Accessors.NtHdr.getAcc` |
| 407-410 | `pe_base::set_checksum` | `Accessors.NtHdr.getAcc` |
| 413-416 | `pe_base::get_time_date_stamp` | `Accessors.NtHdr.getAcc` |
| 419-422 | `pe_base::set_time_date_stamp` | `Accessors.NtHdr.getAcc` |
| 425-428 | `pe_base::get_machine` | `Accessors.NtHdr.getAcc` |
| 431-434 | `pe_base::set_machine` | `Accessors.NtHdr.getAcc` |
| 437-458 | `pe_base::prepare_section` | `Edit.prepareSection`, `Failing.prepareM`, `Mapped.SecObj.prepare`, `Mapped.MImage.change`, `Tls.Image.expandLeft` |
| 461-496 | `pe_base::add_section` | `Edit.Image.addSection`, `Failing.addSectionM`, `Mapped.MImage.addSection`, `Mapped.MImage.change`, `Failing.Image.newSectionVa`, `Failing.Image.roundLast` |
| 499-502 | `pe_base::section_attached` | `Rva.Image.sectionAttached` |
| 505-508 | `pe_base::directory_exists` | `Image.NtHdr.directoryExists`, `Rva.Image.hasDir` |
| 511-514 | `pe_base::remove_directory` | `Image.NtHdr.removeDirectory` |
| 517-520 | `pe_base::get_directory_rva` | `Image.NtHdr.getDirRva` |
| 523-526 | `pe_base::get_directory_size` | `Image.NtHdr.getDirSize` |
| 529-532 | `pe_base::set_directory_rva` | `Image.NtHdr.setDirRva` |
| 535-538 | `pe_base::set_directory_size` | `Image.NtHdr.setDirSize` |
| 543-546 | `pe_base::strip_data_directories` | `Image.NtHdr.stripDataDirectories` |
| 549-552 | `pe_base::has_imports` | `Has.Image.hasImports` |
| 555-558 | `pe_base::has_exports` | `Has.Image.hasExports` |
| 561-564 | `pe_base::has_resources` | `Has.Image.hasResources` |
| 567-570 | `pe_base::has_security` | `Has.Image.hasSecurity` |
| 573-576 | `pe_base::has_reloc` | `Rva.Image.hasReloc` |
| 579-582 | `pe_base::has_tls` | `Has.Image.hasTls` |
| 585-588 | `pe_base::has_config` | `Has.Image.hasConfig` |
| 591-594 | `pe_base::has_bound_import` | `Has.Image.hasBoundImport` |
| 597-600 | `pe_base::has_delay_import` | `Has.Image.hasDelayImport` |
| 603-606 | `pe_base::is_dotnet` | `DotNet.Image.getDotNet`, `Has.Image.isDotnet` |
| 609-612 | `pe_base::has_exception_directory` | `Has.Image.hasExceptionDirectory` |
| 615-618 | `pe_base::has_debug` | `Has.Image.hasDebug` |
| 621-633 | `pe_base::section_data_from_rva` | `Accessors.Image.mutPtrSec`, `Mapped.MImage.perform`, `Rva.Sec.containsRva` |
| 636-643 | `pe_base::section_data_from_rva` | `Mapped.MImage.ptrFromRvaSec`, `Mapped.MImage.perform`, `Rva.Image.ptrFromRvaSec`, `Rva.Sec.containsRva` |
| 646-654 | `pe_base::section_data_length_from_rva` | `Mapped.MImage.dataLenTotal`, `Mapped.MImage.perform`, `Rva.Image.dataLenTotal`, `Mapped.SecObj.viewLen`, `Rva.Sec.viewLen` |
| 657-660 | `pe_base::section_data_length_from_va` | `Accessors.Image.dataLenVa`, `Mapped.MImage.perform` |
| 663-666 | `pe_base::section_data_length_from_va` | `Accessors.Image.dataLenVa`, `Mapped.MImage.perform` |
| 669-687 | `pe_base::section_data_length_from_rva` | `Mapped.MImage.dataLenFrom`, `Mapped.MImage.perform`, `Rva.Image.dataLenFrom`, `Mapped.SecObj.viewLen`, `Rva.Sec.viewLen` |
| 690-693 | `pe_base::section_data_length_from_va` | `Accessors.Image.dataLenFromVa`, `Mapped.MImage.perform` |
| 696-699 | `pe_base::section_data_length_from_va` | `Accessors.Image.dataLenFromVa`, `Mapped.MImage.perform` |
| 702-718 | `pe_base::section_data_length_from_rva` | `Mapped.MImage.dataLenSec`, `Mapped.MImage.perform`, `Rva.Image.dataLenSec`, `Rva.Sec.containsRva`, `Mapped.SecObj.viewLen`, `Rva.Sec.viewLen` |
| 721-724 | `pe_base::section_data_length_from_va` | `Accessors.Image.dataLenVaSec`, `Mapped.MImage.perform` |
| 727-730 | `pe_base::section_data_length_from_va` | `Accessors.Image.dataLenVaSec`, `Mapped.MImage.perform` |
| 733-745 | `pe_base::section_data_from_rva` | `Mapped.MImage.perform`, `Mapped.MImage.poke`, `Mapped.MImage.change`, `Rva.Image.mutPtrFromRva` |
| 748-756 | `pe_base::section_data_from_rva` | `Mapped.MImage.ptrFromRva`, `Mapped.MImage.perform`, `Rva.Image.ptrFromRva` |
| 759-773 | `pe_base::read_dos_header` | `Checksum.readDosHeader`, `Load`, `Load.loadCore`, `StreamState`, `StreamState.dosS` |
| 776-779 | `pe_base::read_dos_header` | `Load`, `Load.loadCore`, `StreamState` |
| 782-1033 | `pe_base::read_pe` | `Load`, `Load.loadCore`, `StreamState`, `StreamState.readPeS`, `StreamState.bodyS`, `Load.loadNt`, ... |
| 1036-1039 | `pe_base::get_pe_type` | `Image.Kind.magic` |
| 1042-1091 | `pe_base::get_pe_type` | `Load`, `Load.peType`, `StreamState`, `StreamState.typeS`, `StreamState.typeBodyS`, `StreamState.Stream.restore'` |
| 1094-1097 | `pe_base::has_overlay` | `Image.Image` |
| 1100-1103 | `pe_base::clear_characteristics_flags` | `Image.NtHdr.clearCharFlags` |
| 1106-1109 | `pe_base::set_characteristics_flags` | `Image.NtHdr.setCharFlags` |
| 1112-1115 | `pe_base::check_characteristics_flag` | `Accessors.NtHdr.checkFlag` |
| 1118-1121 | `pe_base::get_subsystem` | `Accessors.NtHdr.getAcc` |
| 1124-1127 | `pe_base::set_subsystem` | `Accessors.NtHdr.getAcc` |
| 1130-1133 | `pe_base::is_console` | `Accessors.NtHdr.getAcc`, `Accessors.NtHdr.isConsole` |
| 1136-1139 | `pe_base::is_gui` | `Accessors.NtHdr.getAcc`, `Accessors.NtHdr.isConsole` |
| 1142-1145 | `pe_base::set_os_version` | `Accessors.NtHdr.getAcc` |
| 1148-1151 | `pe_base::get_minor_os_version` | `Accessors.NtHdr.getAcc` |
| 1154-1157 | `pe_base::get_major_os_version` | `Accessors.NtHdr.getAcc` |
| 1160-1163 | `pe_base::set_subsystem_version` | `Accessors.NtHdr.getAcc` |
| 1166-1169 | `pe_base::get_minor_subsystem_version` | `Accessors.NtHdr.getAcc` |
| 1172-1175 | `pe_base::get_major_subsystem_version` | `Accessors.NtHdr.getAcc` |
| 1178-1181 | `pe_base::section_data_from_va` | `Accessors.Image.mutPtrVaSec` |
| 1184-1187 | `pe_base::section_data_from_va` | `Accessors.Image.ptrVaSec` |
| 1190-1193 | `pe_base::section_data_from_va` | `Accessors.Image.mutPtrVa` |
| 1196-1199 | `pe_base::section_data_from_va` | `Accessors.Image.ptrFromVa` |
| 1202-1205 | `pe_base::section_data_from_va` | `Accessors.Image.mutPtrVaSec` |
| 1208-1211 | `pe_base::section_data_from_va` | `Accessors.Image.ptrVaSec` |
| 1214-1217 | `pe_base::section_data_from_va` | `Accessors.Image.mutPtrVa` |
| 1220-1223 | `pe_base::section_data_from_va` | `Accessors.Image.ptrFromVa` |
| 1226-1229 | `pe_base::section_from_va` | `Accessors.Image.sectionFromVa` |
| 1232-1235 | `pe_base::section_from_va` | `Accessors.Image.sectionFromVa` |
| 1238-1241 | `pe_base::section_from_va` | `Accessors.Image.sectionFromVa` |
| 1244-1247 | `pe_base::section_from_va` | `Accessors.Image.sectionFromVa` |
| 1249-1252 | `pe_base::va_to_rva` | `Image.Image.vaToRva32` |
| 1254-1257 | `pe_base::va_to_rva` | `Image.Image.vaToRva64` |
| 1259-1262 | `pe_base::rva_to_va_32` | `Image.Image.rvaToVa32` |
| 1264-1267 | `pe_base::rva_to_va_64` | `Image.Image.rvaToVa64` |
| 1270-1273 | `pe_base::rva_to_va` | `Image.Image.rvaToVa32` |
| 1276-1279 | `pe_base::rva_to_va` | `Image.Image.rvaToVa` |
| 1282-1285 | `pe_base::section_from_file_offset` | `Image.Image.rvaToVa`, `Rva.Image.fileOffsetToSection` |
| 1288-1291 | `pe_base::section_from_file_offset` | `Rva.Image.fileOffsetToSection` |
| 1294-1298 | `pe_base::section_and_offset_from_rva` | `Accessors.Image.sectionAndOffset` |
| 1301-1304 | `pe_base::get_dll_characteristics` | `Accessors.NtHdr.getAcc` |
| 1307-1310 | `pe_base::set_dll_characteristics` | `Accessors.NtHdr.getAcc` |
| 1313-1316 | `pe_base::get_size_of_headers` | `Accessors.NtHdr.getAcc` |
| 1319-1322 | `pe_base::get_size_of_optional_header` | `Accessors.NtHdr.getAcc` |
| 1325-1328 | `pe_base::get_pe_signature` | `Accessors.NtHdr.getAcc` |
| 1331-1334 | `pe_base::get_magic` | `Accessors.NtHdr.getAcc` |
| 1337-1340 | `pe_base::get_image_base` | `Accessors.NtHdr.getAcc` |
| 1343-1346 | `pe_base::get_image_base_32` | `Accessors.NtHdr.getAcc` |
| 1349-1352 | `pe_base::get_image_base_64` | `Accessors.NtHdr.getAcc` |
| 1355-1363 | `pe_base::rva_to_file_offset` | `Rva.Image.rvaToFileOffset` |
| 1366-1374 | `pe_base::file_offset_to_rva` | `Rva.Image.fileOffsetToRva` |
| 1377-1384 | `pe_base::file_offset_to_section` | `Rva.Image.fileOffsetToSection` |
| 1387-1394 | `pe_base::file_offset_to_section` | `Rva.Image.fileOffsetToSection` |
| 1397-1400 | `pe_base::rva_from_section_offset` | `Rva.Sec.rvaFromOffset` |
| 1403-1406 | `pe_base::get_image_base` | `Accessors.NtHdr.getAcc` |
| 1409-1412 | `pe_base::set_image_base` | `Accessors.NtHdr.setAcc` |
| 1414-1417 | `pe_base::set_image_base_64` | `Accessors.NtHdr.setAcc` |
| 1420-1423 | `pe_base::set_heap_size_commit` | `Accessors.NtHdr.setAcc` |
| 1425-1428 | `pe_base::set_heap_size_commit` | `Accessors.NtHdr.setAcc` |
| 1431-1434 | `pe_base::set_heap_size_reserve` | `Accessors.NtHdr.setAcc` |
| 1436-1439 | `pe_base::set_heap_size_reserve` | `Accessors.NtHdr.setAcc` |
| 1442-1445 | `pe_base::set_stack_size_commit` | `Accessors.NtHdr.setAcc` |
| 1447-1450 | `pe_base::set_stack_size_commit` | `Accessors.NtHdr.setAcc` |
| 1453-1456 | `pe_base::set_stack_size_reserve` | `Accessors.NtHdr.setAcc` |
| 1458-1461 | `pe_base::set_stack_size_reserve` | `Accessors.NtHdr.setAcc` |
| 1464-1467 | `pe_base::get_heap_size_commit_32` | `Accessors.NtHdr.getAcc` |
| 1469-1472 | `pe_base::get_heap_size_commit_64` | `Accessors.NtHdr.getAcc` |
| 1475-1478 | `pe_base::get_heap_size_reserve_32` | `Accessors.NtHdr.getAcc` |
| 1480-1483 | `pe_base::get_heap_size_reserve_64` | `Accessors.NtHdr.getAcc` |
| 1486-1489 | `pe_base::get_stack_size_commit_32` | `Accessors.NtHdr.getAcc` |
| 1491-1494 | `pe_base::get_stack_size_commit_64` | `Accessors.NtHdr.getAcc` |
| 1497-1500 | `pe_base::get_stack_size_reserve_32` | `Accessors.NtHdr.getAcc` |
| 1502-1505 | `pe_base::get_stack_size_reserve_64` | `Accessors.NtHdr.getAcc` |
| 1508-1511 | `pe_base::get_heap_size_commit` | `Accessors.NtHdr.getAcc32` |
| 1514-1517 | `pe_base::get_heap_size_commit` | `Accessors.NtHdr.getAcc` |
| 1520-1523 | `pe_base::get_heap_size_reserve` | `Accessors.NtHdr.getAcc32` |
| 1526-1529 | `pe_base::get_heap_size_reserve` | `Accessors.NtHdr.getAcc` |
| 1532-1535 | `pe_base::get_stack_size_commit` | `Accessors.NtHdr.getAcc32` |
| 1538-1541 | `pe_base::get_stack_size_commit` | `Accessors.NtHdr.getAcc` |
| 1544-1547 | `pe_base::get_stack_size_reserve` | `Accessors.NtHdr.getAcc32` |
| 1550-1553 | `pe_base::get_stack_size_reserve` | `Accessors.NtHdr.getAcc` |
| 1556-1561 | `pe_base::realign_file` | `Edit.Image.realignFile`, `Failing.realignFileM` |
| 1564-1592 | `pe_base::recalculate_section_sizes` | `Edit.Image.recalculateSectionSizes`, `Failing.recalculateM`, `Mapped.MImage.recalculateSectionSizes`, `Mapped.MImage.change`, `Failing.stripM`, `Mapped.SecObj.strip`, ... |
| 1596-1599 | `pe_base::get_full_headers_data` | `Image.Image` |
| 1601-1604 | `pe_base::get_raw_debug_data_list` | `Image.Image` |
| 1607-1610 | `pe_base::set_number_of_sections` | `Accessors.NtHdr.setAcc` |
| 1613-1616 | `pe_base::set_size_of_image` | `Accessors.NtHdr.setAcc` |
| 1619-1622 | `pe_base::set_size_of_headers` | `Accessors.NtHdr.setAcc` |
| 1625-1628 | `pe_base::set_size_of_optional_header` | `Accessors.NtHdr.setAcc` |
| 1631-1634 | `pe_base::get_nt_headers_ptr` | `Image.Image` |
| 1637-1640 | `pe_base::get_nt_headers_ptr` | `Image.Image` |
| 1643-1646 | `pe_base::get_sizeof_nt_header` | `Image.Kind.sizeofNt` |
| 1649-1652 | `pe_base::get_sizeof_opt_headers` | `Image.Kind.sizeofOpt` |
| 1655-1658 | `pe_base::set_file_alignment_unchecked` | `Accessors.NtHdr.setAcc` |
| 1661-1664 | `pe_base::set_base_of_code` | `Accessors.NtHdr.setAcc` |
| 1667-1670 | `pe_base::get_base_of_code` | `Accessors.NtHdr.getAcc` |
| 1673-1676 | `pe_base::get_needed_magic` | `Image.Kind.magic` |

## pe_bound_import.cpp

| lines | function | model |
|---|---|---|
| 11-24 | `bound_import_ref::bound_import_ref` | `Plain.Cls.new`, `Plain.boundImportRefC`, `Plain.Ctor` |
| 27-30 | `bound_import_ref::get_timestamp` | `Plain.boundImportRefC` |
| 33-36 | `bound_import_ref::set_module_name` | `Plain.boundImportRefC` |
| 39-42 | `bound_import_ref::set_timestamp` | `Plain.boundImportRefC` |
| 45-58 | `bound_import::bound_import` | `Plain.boundImportC` |
| 61-64 | `bound_import::get_timestamp` | `Plain.boundImportC` |
| 67-70 | `bound_import::get_module_ref_count` | `Plain.boundImportC` |
| 73-76 | `bound_import::get_module_ref_list` | `Plain.boundImportC` |
| 79-82 | `bound_import::add_module_ref` | `Plain.boundImportC` |
| 85-88 | `bound_import::clear_module_refs` | `Plain.boundImportC` |
| 91-94 | `bound_import::get_module_ref_list` | `Plain.boundImportC` |
| 97-100 | `bound_import::set_module_name` | `Plain.boundImportC` |
| 103-106 | `bound_import::set_timestamp` | `Plain.boundImportC` |
| 108-196 | `get_bound_import_module_list` | `BoundImport.Image.getBound`, `BoundImport.boundLoop`, `CStr.checkedCStr`, `BoundImport.boundRefs` |
| 203-289 | `rebuild_bound_imports` | `BoundImport.Image.rebuildBound`, `Failing.rebuildBoundM`, `BoundImport.boundStructs`, `BoundImport.boundStrings`, `DirWrite.Image.spaceCheck`, `Failing.writeDirM`, ... |

## pe_checksum.cpp

| lines | function | model |
|---|---|---|
| 10-81 | `calculate_checksum` | `Checksum.calculateChecksum`, `StreamUse.checksumS`, `StreamUse.checksumBodyS`, `Checksum.csLoop`, `StreamUse.csLoopS`, `Checksum.csStep`, ... |

## pe_debug.cpp

| lines | function | model |
|---|---|---|
| 10-37 | `debug_info::debug_info` | `Objects.DState.step`, `Objects`, `Debug.DebugInfo` |
| 40-43 | `debug_info::get_time_stamp` | `Debug.DebugInfo` |
| 46-49 | `debug_info::get_major_version` | `Debug.DebugInfo` |
| 52-55 | `debug_info::get_minor_version` | `Debug.DebugInfo` |
| 58-61 | `debug_info::get_type_raw` | `Debug.DebugInfo` |
| 64-104 | `debug_info::get_type` | `Debug.DebugInfo` |
| 107-110 | `debug_info::get_size_of_data` | `Debug.DebugInfo` |
| 113-116 | `debug_info::get_rva_of_raw_data` | `Debug.DebugInfo` |
| 119-122 | `debug_info::get_pointer_to_raw_data` | `Debug.DebugInfo` |
| 125-136 | `debug_info::debug_info` | `Objects.DState.step`, `Objects` |
| 139-154 | `debug_info::operator=` | `Objects.DState.putDir`, `Objects.DState.step`, `Objects`, `Objects.DState.putType` |
| 157-165 | `debug_info::advanced_info::advanced_info` | `Debug.AdvInfo`, `Debug.AdvInfo.isPresent` |
| 168-191 | `debug_info::copy_advanced_info` | `Debug.AdvInfo`, `Objects.DState.copyAdv`, `Objects.hasInfo`, `Objects.DState.putType` |
| 194-216 | `debug_info::free_present_advanced_info` | `Objects.DState.freeAdv`, `Objects.hasInfo` |
| 219-222 | `debug_info::~debug_info` | `Objects.DState.step`, `Objects` |
| 225-230 | `debug_info::set_advanced_debug_info` | `Objects.DState.putAdv`, `Objects.DState.step`, `Objects` |
| 232-237 | `debug_info::set_advanced_debug_info` | `Objects.DState.putAdv`, `Objects.DState.step`, `Objects` |
| 239-244 | `debug_info::set_advanced_debug_info` | `Objects.DState.putAdv`, `Objects.DState.step`, `Objects` |
| 246-251 | `debug_info::set_advanced_debug_info` | `Objects.DState.putAdv`, `Objects.DState.step`, `Objects` |
| 254-257 | `debug_info::get_advanced_info_type` | `Objects.DState.typeOf` |
| 261-268 | `debug_info::get_advanced_debug_info<pdb_7_0_info>` | `Objects.DState.get` |
| 270-277 | `debug_info::get_advanced_debug_info<pdb_2_0_info>` | `Objects.DState.get` |
| 279-286 | `debug_info::get_advanced_debug_info<misc_debug_info>` | `Objects.DState.get` |
| 288-295 | `debug_info::get_advanced_debug_info<coff_debug_info>` | `Objects.DState.get` |
| 298-303 | `debug_info::set_advanced_info_type` | `Debug.setAdvType`, `Objects.DState.step`, `Objects`, `Objects.DState.putType` |
| 306-310 | `pdb_7_0_info::pdb_7_0_info` | `Plain.pdb70InfoC` |
| 313-322 | `pdb_7_0_info::pdb_7_0_info` | `Debug.AdvInfo.guid` |
| 325-328 | `pdb_7_0_info::get_age` | `Plain.pdb70InfoC` |
| 331-334 | `pdb_7_0_info::get_pdb_file_name` | `Plain.pdb70InfoC` |
| 337-351 | `pdb_2_0_info::pdb_2_0_info` | `Plain.pdb20InfoC` |
| 354-357 | `pdb_2_0_info::get_age` | `Plain.pdb20InfoC` |
| 360-363 | `pdb_2_0_info::get_pdb_file_name` | `Plain.pdb20InfoC` |
| 366-390 | `misc_debug_info::misc_debug_info` | `Plain.miscDebugInfoC`, `Debug.miscText` |
| 393-396 | `misc_debug_info::get_data_type` | `Plain.miscDebugInfoC` |
| 399-402 | `misc_debug_info::is_exe_name` | `Plain.miscDebugInfoC` |
| 405-408 | `misc_debug_info::is_unicode` | `Plain.miscDebugInfoC` |
| 411-414 | `misc_debug_info::get_data_ansi` | `Plain.miscDebugInfoC` |
| 417-420 | `misc_debug_info::get_data_unicode` | `Plain.miscDebugInfoC` |
| 423-450 | `coff_debug_info::coff_debug_info` | `Plain.coffDebugInfoC` |
| 453-456 | `coff_debug_info::get_lva_to_first_symbol` | `Plain.coffDebugInfoC` |
| 459-462 | `coff_debug_info::get_number_of_line_numbers` | `Plain.coffDebugInfoC` |
| 465-468 | `coff_debug_info::get_lva_to_first_line_number` | `Plain.coffDebugInfoC` |
| 471-474 | `coff_debug_info::get_rva_to_first_byte_of_code` | `Plain.coffDebugInfoC` |
| 477-480 | `coff_debug_info::get_rva_to_last_byte_of_code` | `Plain.coffDebugInfoC` |
| 483-486 | `coff_debug_info::get_rva_to_first_byte_of_data` | `Plain.coffDebugInfoC` |
| 489-492 | `coff_debug_info::get_rva_to_last_byte_of_data` | `Plain.coffDebugInfoC` |
| 495-498 | `coff_debug_info::get_symbols` | `Plain.coffDebugInfoC` |
| 501-504 | `coff_debug_info::add_symbol` | `Plain.coffDebugInfoC` |
| 507-519 | `coff_debug_info::coff_symbol::coff_symbol` | `Plain.coffSymbolC` |
| 522-525 | `coff_debug_info::coff_symbol::get_index` | `Plain.coffSymbolC` |
| 528-531 | `coff_debug_info::coff_symbol::get_section_number` | `Plain.coffSymbolC` |
| 534-537 | `coff_debug_info::coff_symbol::get_rva` | `Plain.coffSymbolC` |
| 540-543 | `coff_debug_info::coff_symbol::is_file` | `Plain.coffSymbolC` |
| 546-549 | `coff_debug_info::coff_symbol::get_symbol` | `Plain.coffSymbolC` |
| 552-555 | `coff_debug_info::coff_symbol::set_storage_class` | `Plain.coffSymbolC` |
| 558-561 | `coff_debug_info::coff_symbol::set_index` | `Plain.coffSymbolC` |
| 564-567 | `coff_debug_info::coff_symbol::set_section_number` | `Plain.coffSymbolC` |
| 570-573 | `coff_debug_info::coff_symbol::set_rva` | `Plain.coffSymbolC` |
| 576-580 | `coff_debug_info::coff_symbol::set_file_name` | `Plain.coffSymbolC` |
| 583-587 | `coff_debug_info::coff_symbol::set_symbol_name` | `Plain.coffSymbolC` |
| 590-593 | `coff_debug_info::coff_symbol::get_type` | `Plain.coffSymbolC` |
| 596-599 | `coff_debug_info::coff_symbol::set_type` | `Plain.coffSymbolC` |
| 602-843 | `get_debug_information` | `Debug.Image.getDebug`, `Debug.Image.debugLoop`, `Debug.debugAdv`, `Debug.debugCoff`, `Debug.coffLoop`, `Debug.coffListed`, ... |

## pe_directory.cpp

| lines | function | model |
|---|---|---|
| 6-19 | `image_directory::image_directory` | `Plain.imageDirectoryC` |
| 22-25 | `image_directory::get_size` | `Plain.imageDirectoryC` |
| 28-31 | `image_directory::set_rva` | `Plain.imageDirectoryC` |
| 34-37 | `image_directory::set_size` | `Plain.imageDirectoryC` |

## pe_dotnet.cpp

| lines | function | model |
|---|---|---|
| 9-12 | `basic_dotnet_info::basic_dotnet_info` | `DotNet.CorHdr` |
| 15-23 | `basic_dotnet_info::basic_dotnet_info` | `DotNet.CorHdr` |
| 26-29 | `basic_dotnet_info::get_minor_runtime_version` | `DotNet.CorHdr` |
| 32-35 | `basic_dotnet_info::get_rva_of_metadata` | `DotNet.CorHdr` |
| 38-41 | `basic_dotnet_info::get_size_of_metadata` | `DotNet.CorHdr` |
| 44-47 | `basic_dotnet_info::get_flags` | `DotNet.CorHdr` |
| 50-53 | `basic_dotnet_info::is_native_entry_point` | `DotNet.CorHdr`, `DotNet.CorHdr.nativeEntry` |
| 56-59 | `basic_dotnet_info::is_32bit_required` | `DotNet.CorHdr`, `DotNet.CorHdr.bits32` |
| 62-65 | `basic_dotnet_info::is_il_library` | `DotNet.CorHdr`, `DotNet.CorHdr.ilLibrary` |
| 68-71 | `basic_dotnet_info::is_il_only` | `DotNet.CorHdr`, `DotNet.CorHdr.ilOnly` |
| 75-78 | `basic_dotnet_info::get_entry_point_rva_or_token` | `DotNet.CorHdr` |
| 81-84 | `basic_dotnet_info::get_rva_of_resources` | `DotNet.CorHdr` |
| 87-90 | `basic_dotnet_info::get_size_of_resources` | `DotNet.CorHdr` |
| 93-96 | `basic_dotnet_info::get_rva_of_strong_name_signature` | `DotNet.CorHdr` |
| 99-102 | `basic_dotnet_info::get_size_of_strong_name_signature` | `DotNet.CorHdr` |
| 105-108 | `basic_dotnet_info::get_rva_of_code_manager_table` | `DotNet.CorHdr` |
| 111-114 | `basic_dotnet_info::get_size_of_code_manager_table` | `DotNet.CorHdr` |
| 117-120 | `basic_dotnet_info::get_rva_of_vtable_fixups` | `DotNet.CorHdr` |
| 123-126 | `basic_dotnet_info::get_size_of_vtable_fixups` | `DotNet.CorHdr` |
| 129-132 | `basic_dotnet_info::get_rva_of_export_address_table_jumps` | `DotNet.CorHdr` |
| 135-138 | `basic_dotnet_info::get_size_of_export_address_table_jumps` | `DotNet.CorHdr` |
| 142-145 | `basic_dotnet_info::get_rva_of_managed_native_header` | `DotNet.CorHdr` |
| 149-152 | `basic_dotnet_info::get_size_of_managed_native_header` | `DotNet.CorHdr` |
| 156-164 | `get_basic_dotnet_info` | `DotNet.Image.getDotNet` |

## pe_exception.cpp

| lines | function | model |
|---|---|---|
| 6-18 | `pe_exception::pe_exception` | `Basic.Err` |

## pe_exception_directory.cpp

| lines | function | model |
|---|---|---|
| 9-34 | `exception_entry::exception_entry` | `Plain.exceptionEntryC`, `Exception.ExcEntry.ofBytes` |
| 37-40 | `exception_entry::get_end_address` | `Plain.exceptionEntryC` |
| 43-46 | `exception_entry::get_unwind_info_address` | `Plain.exceptionEntryC` |
| 49-52 | `exception_entry::get_unwind_info_version` | `Plain.exceptionEntryC` |
| 55-58 | `exception_entry::get_flags` | `Plain.How`, `Plain.How.eval`, `Plain.exceptionEntryC` |
| 62-65 | `exception_entry::has_exception_handler` | `Plain.How`, `Plain.boolV`, `Plain.How.eval`, `Plain.exceptionEntryC` |
| 69-72 | `exception_entry::has_termination_handler` | `Plain.How`, `Plain.How.eval`, `Plain.exceptionEntryC` |
| 75-78 | `exception_entry::is_chaininfo` | `Plain.How`, `Plain.How.eval`, `Plain.exceptionEntryC` |
| 81-84 | `exception_entry::get_size_of_prolog` | `Plain.How`, `Plain.How.eval`, `Plain.exceptionEntryC` |
| 87-90 | `exception_entry::get_number_of_unwind_slots` | `Plain.How`, `Plain.How.eval`, `Plain.exceptionEntryC` |
| 93-96 | `exception_entry::uses_frame_pointer` | `Plain.How`, `Plain.How.eval`, `Plain.exceptionEntryC` |
| 100-103 | `exception_entry::get_frame_pointer_register_number` | `Plain.exceptionEntryC` |
| 107-110 | `exception_entry::get_scaled_rsp_offset` | `Plain.exceptionEntryC` |
| 114-155 | `get_exception_directory_data` | `Exception.Image.getExceptions`, `Exception.Image.excLoop` |

## pe_exports.cpp

| lines | function | model |
|---|---|---|
| 13-21 | `exported_function::exported_function` | `Exports.ExportFn`, `Plain.exportedFunctionC` |
| 24-27 | `exported_function::get_rva` | `Plain.exportedFunctionC` |
| 30-33 | `exported_function::get_name` | `Plain.exportedFunctionC` |
| 36-39 | `exported_function::has_name` | `Plain.exportedFunctionC` |
| 42-45 | `exported_function::get_name_ordinal` | `Plain.exportedFunctionC` |
| 48-51 | `exported_function::is_forwarded` | `Plain.exportedFunctionC` |
| 54-57 | `exported_function::get_forwarded_name` | `Plain.exportedFunctionC` |
| 60-63 | `exported_function::set_ordinal` | `Plain.exportedFunctionC` |
| 66-69 | `exported_function::set_rva` | `Plain.exportedFunctionC` |
| 72-76 | `exported_function::set_name` | `Exports.ExportFn`, `Plain.exportedFunctionC` |
| 79-82 | `exported_function::set_name_ordinal` | `Exports.ExportFn`, `Plain.exportedFunctionC` |
| 85-89 | `exported_function::set_forwarded_name` | `Exports.ExportFn`, `Plain.exportedFunctionC` |
| 92-109 | `export_info::export_info` | `Plain.exportInfoC` |
| 112-115 | `export_info::get_timestamp` | `Plain.exportInfoC` |
| 118-121 | `export_info::get_major_version` | `Plain.exportInfoC` |
| 124-127 | `export_info::get_minor_version` | `Plain.exportInfoC` |
| 130-133 | `export_info::get_name` | `Plain.exportInfoC` |
| 136-139 | `export_info::get_ordinal_base` | `Plain.exportInfoC` |
| 142-145 | `export_info::get_number_of_functions` | `Plain.exportInfoC` |
| 148-151 | `export_info::get_number_of_names` | `Plain.exportInfoC` |
| 154-157 | `export_info::get_rva_of_functions` | `Plain.exportInfoC` |
| 160-163 | `export_info::get_rva_of_names` | `Plain.exportInfoC` |
| 166-169 | `export_info::get_rva_of_name_ordinals` | `Plain.exportInfoC` |
| 172-175 | `export_info::set_characteristics` | `Plain.exportInfoC` |
| 178-181 | `export_info::set_timestamp` | `Plain.exportInfoC` |
| 184-187 | `export_info::set_major_version` | `Plain.exportInfoC` |
| 190-193 | `export_info::set_minor_version` | `Plain.exportInfoC` |
| 196-199 | `export_info::set_name` | `Plain.exportInfoC` |
| 202-205 | `export_info::set_ordinal_base` | `Plain.exportInfoC` |
| 208-211 | `export_info::set_number_of_functions` | `Plain.exportInfoC` |
| 214-217 | `export_info::set_number_of_names` | `Plain.exportInfoC` |
| 220-223 | `export_info::set_rva_of_functions` | `Plain.exportInfoC` |
| 226-229 | `export_info::set_rva_of_names` | `Plain.exportInfoC` |
| 232-235 | `export_info::set_rva_of_name_ordinals` | `Plain.exportInfoC` |
| 240-243 | `get_exported_functions` | `Exports.Image.getExportList` |
| 246-249 | `get_exported_functions` | `Exports.Image.getExports` |
| 259-414 | `get_exported_functions` | `Exports.Image.getExportList`, `Exports.Image.getExports`, `Exports.Image.exportInfo`, `Exports.Image.exportStr`, `StrAt.Image.strAt`, `Exports.Image.exportFns`, ... |
| 418-435 | `get_export_ordinal_limits` | `Exports.exportLimits` |
| 438-447 | `exported_name_exists` | `Exports.exportNameExists` |
| 450-459 | `exported_ordinal_exists` | `Exports.exportOrdinalExists` |
| 462-465 | `ordinal_sorter::operator` | `Exports.Image.rebuildExports` |
| 479-678 | `rebuild_exports` | `Exports.Image.rebuildExports`, `Failing.rebuildExportsM`, `Exports.exportDup`, `Exports.strSize`, `Sort`, `DirWrite.Image.spaceCheck`, ... |

## pe_factory.cpp

| lines | function | model |
|---|---|---|
| 6-11 | `pe_factory::create_pe` | `Load.createPe`, `StreamState.createS` |

## pe_imports.cpp

| lines | function | model |
|---|---|---|
| 16-31 | `import_rebuilder_settings::import_rebuilder_settings` | `Imports.ImportCfg`, `Plain.importRebuilderSettingsC` |
| 34-37 | `import_rebuilder_settings::build_original_iat` | `Plain.importRebuilderSettingsC` |
| 41-44 | `import_rebuilder_settings::save_iat_and_original_iat_rvas` | `Plain.importRebuilderSettingsC` |
| 49-52 | `import_rebuilder_settings::rewrite_iat_and_original_iat_contents` | `Plain.importRebuilderSettingsC` |
| 56-59 | `import_rebuilder_settings::fill_missing_original_iats` | `Plain.importRebuilderSettingsC` |
| 62-65 | `import_rebuilder_settings::auto_set_to_pe_headers` | `Plain.importRebuilderSettingsC` |
| 68-71 | `import_rebuilder_settings::zero_directory_entry_iat` | `Plain.importRebuilderSettingsC` |
| 74-77 | `import_rebuilder_settings::auto_strip_last_section_enabled` | `Plain.importRebuilderSettingsC` |
| 80-83 | `import_rebuilder_settings::set_offset_from_section_start` | `Plain.importRebuilderSettingsC` |
| 86-89 | `import_rebuilder_settings::build_original_iat` | `Plain.importRebuilderSettingsC` |
| 93-100 | `import_rebuilder_settings::save_iat_and_original_iat_rvas` | `Plain.Stmt`, `Plain.importRebuilderSettingsC` |
| 104-107 | `import_rebuilder_settings::fill_missing_original_iats` | `Plain.importRebuilderSettingsC` |
| 110-113 | `import_rebuilder_settings::auto_set_to_pe_headers` | `Plain.importRebuilderSettingsC` |
| 116-119 | `import_rebuilder_settings::zero_directory_entry_iat` | `Plain.importRebuilderSettingsC` |
| 122-125 | `import_rebuilder_settings::enable_auto_strip_last_section` | `Plain.importRebuilderSettingsC` |
| 128-136 | `imported_function::imported_function` | `Plain.importedFunctionC` |
| 139-142 | `imported_function::has_name` | `Imports.ImportFn`, `Plain.isEmptyV`, `Plain.importedFunctionC` |
| 145-148 | `imported_function::get_hint` | `Plain.importedFunctionC` |
| 151-154 | `imported_function::get_ordinal` | `Plain.importedFunctionC` |
| 157-160 | `imported_function::get_iat_va` | `Plain.importedFunctionC` |
| 163-166 | `imported_function::set_name` | `Plain.importedFunctionC` |
| 169-172 | `imported_function::set_hint` | `Plain.importedFunctionC` |
| 175-178 | `imported_function::set_ordinal` | `Plain.importedFunctionC` |
| 181-184 | `imported_function::set_iat_va` | `Plain.importedFunctionC` |
| 187-195 | `import_library::import_library` | `Plain.importLibraryC` |
| 198-201 | `import_library::get_rva_to_iat` | `Plain.importLibraryC` |
| 204-207 | `import_library::get_rva_to_original_iat` | `Plain.importLibraryC` |
| 210-213 | `import_library::get_timestamp` | `Plain.importLibraryC` |
| 216-219 | `import_library::set_name` | `Plain.importLibraryC` |
| 222-225 | `import_library::set_rva_to_iat` | `Plain.importLibraryC` |
| 228-231 | `import_library::set_rva_to_original_iat` | `Plain.importLibraryC` |
| 234-237 | `import_library::set_timestamp` | `Plain.importLibraryC` |
| 240-243 | `import_library::get_imported_functions` | `Plain.importLibraryC` |
| 246-249 | `import_library::add_import` | `Plain.importLibraryC` |
| 252-255 | `import_library::clear_imports` | `Plain.importLibraryC` |
| 257-262 | `get_imported_functions` | `Imports.Image.getImports` |
| 264-269 | `rebuild_imports` | `Failing.rebuildImportsM`, `Imports.Image.rebuildImports` |
| 272-405 | `get_imported_functions_base` | `Imports.Image.getImports`, `Imports.Image.importLoop`, `StrAt.Image.strAt`, `Imports.Image.importTables`, `Imports.Image.importLookup0`, `Imports.Image.importThunks`, ... |
| 416-759 | `rebuild_imports_base` | `Failing.rebuildImportsM`, `Imports.Image.rebuildImports`, `Imports.importStrings`, `Imports.importIatSize`, `DirWrite.Image.spaceCheck`, `Failing.putLibsM`, ... |

## pe_load_config.cpp

| lines | function | model |
|---|---|---|
| 12-58 | `image_config_info::image_config_info` | `Plain.imageConfigInfoC`, `LoadConfig.ConfigInfo.ofBytes` |
| 61-64 | `image_config_info::get_major_version` | `Plain.imageConfigInfoC` |
| 67-70 | `image_config_info::get_minor_version` | `Plain.imageConfigInfoC` |
| 73-76 | `image_config_info::get_global_flags_clear` | `Plain.imageConfigInfoC` |
| 79-82 | `image_config_info::get_global_flags_set` | `Plain.imageConfigInfoC` |
| 85-88 | `image_config_info::get_critical_section_default_timeout` | `Plain.imageConfigInfoC` |
| 92-95 | `image_config_info::get_decommit_free_block_threshold` | `Plain.imageConfigInfoC` |
| 99-102 | `image_config_info::get_decommit_total_free_threshold` | `Plain.imageConfigInfoC` |
| 105-108 | `image_config_info::get_lock_prefix_table_va` | `Plain.imageConfigInfoC` |
| 111-114 | `image_config_info::get_max_allocation_size` | `Plain.imageConfigInfoC` |
| 117-120 | `image_config_info::get_virtual_memory_threshold` | `Plain.imageConfigInfoC` |
| 123-126 | `image_config_info::get_process_affinity_mask` | `Plain.imageConfigInfoC` |
| 129-132 | `image_config_info::get_process_heap_flags` | `Plain.imageConfigInfoC` |
| 135-138 | `image_config_info::get_service_pack_version` | `Plain.imageConfigInfoC` |
| 141-144 | `image_config_info::get_edit_list_va` | `Plain.imageConfigInfoC` |
| 147-150 | `image_config_info::get_security_cookie_va` | `Plain.imageConfigInfoC` |
| 153-156 | `image_config_info::get_se_handler_table_va` | `Plain.imageConfigInfoC` |
| 159-162 | `image_config_info::get_se_handler_count` | `Plain.imageConfigInfoC` |
| 165-168 | `image_config_info::get_se_handler_rvas` | `Plain.imageConfigInfoC` |
| 171-174 | `image_config_info::get_lock_prefix_rvas` | `Plain.imageConfigInfoC` |
| 177-180 | `image_config_info::add_se_handler_rva` | `Plain.imageConfigInfoC` |
| 183-186 | `image_config_info::clear_se_handler_list` | `Plain.imageConfigInfoC` |
| 189-192 | `image_config_info::add_lock_prefix_rva` | `Plain.imageConfigInfoC` |
| 195-198 | `image_config_info::clear_lock_prefix_list` | `Plain.imageConfigInfoC` |
| 201-204 | `image_config_info::set_time_stamp` | `Plain.imageConfigInfoC` |
| 207-210 | `image_config_info::set_major_version` | `Plain.imageConfigInfoC` |
| 213-216 | `image_config_info::set_minor_version` | `Plain.imageConfigInfoC` |
| 219-222 | `image_config_info::set_global_flags_clear` | `Plain.imageConfigInfoC` |
| 225-228 | `image_config_info::set_global_flags_set` | `Plain.imageConfigInfoC` |
| 231-234 | `image_config_info::set_critical_section_default_timeout` | `Plain.imageConfigInfoC` |
| 238-241 | `image_config_info::set_decommit_free_block_threshold` | `Plain.imageConfigInfoC` |
| 245-248 | `image_config_info::set_decommit_total_free_threshold` | `Plain.imageConfigInfoC` |
| 252-255 | `image_config_info::set_lock_prefix_table_va` | `Plain.imageConfigInfoC` |
| 258-261 | `image_config_info::set_max_allocation_size` | `Plain.imageConfigInfoC` |
| 264-267 | `image_config_info::set_virtual_memory_threshold` | `Plain.imageConfigInfoC` |
| 270-273 | `image_config_info::set_process_affinity_mask` | `Plain.imageConfigInfoC` |
| 276-279 | `image_config_info::set_process_heap_flags` | `Plain.imageConfigInfoC` |
| 282-285 | `image_config_info::set_service_pack_version` | `Plain.imageConfigInfoC` |
| 288-291 | `image_config_info::set_edit_list_va` | `Plain.imageConfigInfoC` |
| 294-297 | `image_config_info::set_security_cookie_va` | `Plain.imageConfigInfoC` |
| 301-304 | `image_config_info::set_se_handler_table_va` | `Plain.imageConfigInfoC` |
| 307-310 | `image_config_info::get_se_handler_rvas` | `Plain.imageConfigInfoC` |
| 313-316 | `image_config_info::get_lock_prefix_rvas` | `Plain.imageConfigInfoC` |
| 320-325 | `get_image_config` | `LoadConfig.Image.getConfig` |
| 328-333 | `rebuild_image_config` | `Failing.rebuildConfigM`, `LoadConfig.Image.rebuildConfig` |
| 338-381 | `get_image_config_base` | `LoadConfig.Image.getConfig`, `LoadConfig.Image.seLoop`, `LoadConfig.Image.lockPrefixes`, `LoadConfig.Image.lockLoop` |
| 387-534 | `rebuild_image_config_base` | `Failing.rebuildConfigM`, `LoadConfig.Image.rebuildConfig`, `LoadConfig.configSizes`, `DirWrite.Image.spaceCheck`, `DirWrite.growTo`, `LoadConfig.configFields`, ... |

## pe_properties.cpp

| lines | function | model |
|---|---|---|
| 6-13 | `pe_properties::~pe_properties` | `Image.NtHdr.clearCharFlags` |
| 16-19 | `pe_properties::set_characteristics_flags` | `Image.NtHdr.setCharFlags` |

## pe_properties_generic.cpp

| lines | function | model |
|---|---|---|
| 11-15 | `pe_properties_generic<PEClassType>::duplicate` | `Objects` |
| 18-36 | `pe_properties_generic<PEClassType>::create_pe` | `Image.createNt` |
| 39-49 | `pe_properties_generic<PEClassType>::~pe_properties_generic` | `Image.NtHdr.directoryExists` |
| 52-70 | `pe_properties_generic<PEClassType>::remove_directory` | `Image.NtHdr.removeDirectory` |
| 73-81 | `pe_properties_generic<PEClassType>::get_directory_rva` | `Image.NtHdr.getDirRva` |
| 84-92 | `pe_properties_generic<PEClassType>::set_directory_rva` | `Image.NtHdr.setDirRva` |
| 94-102 | `pe_properties_generic<PEClassType>::set_directory_size` | `Image.NtHdr.setDirSize`, `Failing.setDirM` |
| 105-113 | `pe_properties_generic<PEClassType>::get_directory_size` | `Failing.setDirM`, `Image.NtHdr.getDirSize` |
| 118-139 | `pe_properties_generic<PEClassType>::strip_data_directories` | `Image.NtHdr.stripDataDirectories`, `Image.NtHdr.stripLoop` |
| 142-146 | `pe_properties_generic<PEClassType>::get_image_base_32` | `Accessors.NtHdr.getAcc`, `Accessors.NtHdr.getAcc32` |
| 149-153 | `pe_properties_generic<PEClassType>::get_image_base_64` | `Accessors.NtHdr.getAcc` |
| 156-160 | `pe_properties_generic<PEClassType>::set_image_base` | `Accessors.NtHdr.setAcc` |
| 163-167 | `pe_properties_generic<PEClassType>::set_image_base_64` | `Accessors.NtHdr.setAcc`, `Image.Image.setImageBase64` |
| 170-174 | `pe_properties_generic<PEClassType>::get_ep` | `Accessors.NtHdr.getAcc` |
| 177-181 | `pe_properties_generic<PEClassType>::set_ep` | `Accessors.NtHdr.setAcc` |
| 184-188 | `pe_properties_generic<PEClassType>::get_file_alignment` | `Accessors.NtHdr.getAcc` |
| 191-195 | `pe_properties_generic<PEClassType>::get_section_alignment` | `Accessors.NtHdr.getAcc` |
| 198-202 | `pe_properties_generic<PEClassType>::set_heap_size_commit` | `Accessors.NtHdr.setAcc` |
| 205-209 | `pe_properties_generic<PEClassType>::set_heap_size_commit` | `Accessors.NtHdr.setAcc` |
| 212-216 | `pe_properties_generic<PEClassType>::set_heap_size_reserve` | `Accessors.NtHdr.setAcc` |
| 219-223 | `pe_properties_generic<PEClassType>::set_heap_size_reserve` | `Accessors.NtHdr.setAcc` |
| 226-230 | `pe_properties_generic<PEClassType>::set_stack_size_commit` | `Accessors.NtHdr.setAcc` |
| 233-237 | `pe_properties_generic<PEClassType>::set_stack_size_commit` | `Accessors.NtHdr.setAcc` |
| 240-244 | `pe_properties_generic<PEClassType>::set_stack_size_reserve` | `Accessors.NtHdr.setAcc` |
| 247-251 | `pe_properties_generic<PEClassType>::set_stack_size_reserve` | `Accessors.NtHdr.setAcc` |
| 254-258 | `pe_properties_generic<PEClassType>::get_heap_size_commit_32` | `Accessors.NtHdr.getAcc`, `Accessors.NtHdr.getAcc32` |
| 261-265 | `pe_properties_generic<PEClassType>::get_heap_size_commit_64` | `Accessors.NtHdr.getAcc` |
| 268-272 | `pe_properties_generic<PEClassType>::get_heap_size_reserve_32` | `Accessors.NtHdr.getAcc`, `Accessors.NtHdr.getAcc32` |
| 275-279 | `pe_properties_generic<PEClassType>::get_heap_size_reserve_64` | `Accessors.NtHdr.getAcc` |
| 282-286 | `pe_properties_generic<PEClassType>::get_stack_size_commit_32` | `Accessors.NtHdr.getAcc`, `Accessors.NtHdr.getAcc32` |
| 289-293 | `pe_properties_generic<PEClassType>::get_stack_size_commit_64` | `Accessors.NtHdr.getAcc` |
| 296-300 | `pe_properties_generic<PEClassType>::get_stack_size_reserve_32` | `Accessors.NtHdr.getAcc`, `Accessors.NtHdr.getAcc32` |
| 303-307 | `pe_properties_generic<PEClassType>::get_stack_size_reserve_64` | `Accessors.NtHdr.getAcc` |
| 310-314 | `pe_properties_generic<PEClassType>::get_size_of_image` | `Accessors.NtHdr.getAcc` |
| 317-321 | `pe_properties_generic<PEClassType>::get_number_of_rvas_and_sizes` | `Accessors.NtHdr.getAcc` |
| 324-328 | `pe_properties_generic<PEClassType>::set_number_of_rvas_and_sizes` | `Accessors.NtHdr.setAcc` |
| 331-335 | `pe_properties_generic<PEClassType>::get_characteristics` | `Accessors.NtHdr.getAcc` |
| 338-342 | `pe_properties_generic<PEClassType>::get_checksum` | `Accessors.NtHdr.getAcc` |
| 345-349 | `pe_properties_generic<PEClassType>::set_checksum` | `Accessors.NtHdr.setAcc` |
| 352-356 | `pe_properties_generic<PEClassType>::get_dll_characteristics` | `Accessors.NtHdr.getAcc` |
| 359-363 | `pe_properties_generic<PEClassType>::get_time_date_stamp` | `Accessors.NtHdr.getAcc` |
| 366-370 | `pe_properties_generic<PEClassType>::set_time_date_stamp` | `Accessors.NtHdr.setAcc` |
| 373-377 | `pe_properties_generic<PEClassType>::set_dll_characteristics` | `Accessors.NtHdr.setAcc` |
| 380-384 | `pe_properties_generic<PEClassType>::get_machine` | `Accessors.NtHdr.getAcc` |
| 387-391 | `pe_properties_generic<PEClassType>::set_machine` | `Accessors.NtHdr.setAcc` |
| 394-398 | `pe_properties_generic<PEClassType>::set_characteristics` | `Accessors.NtHdr.setAcc` |
| 401-405 | `pe_properties_generic<PEClassType>::get_size_of_headers` | `Accessors.NtHdr.getAcc` |
| 408-412 | `pe_properties_generic<PEClassType>::get_subsystem` | `Accessors.NtHdr.getAcc` |
| 415-419 | `pe_properties_generic<PEClassType>::set_subsystem` | `Accessors.NtHdr.setAcc` |
| 422-426 | `pe_properties_generic<PEClassType>::get_size_of_optional_header` | `Accessors.NtHdr.getAcc` |
| 429-433 | `pe_properties_generic<PEClassType>::get_pe_signature` | `Accessors.NtHdr.getAcc` |
| 436-440 | `pe_properties_generic<PEClassType>::get_magic` | `Accessors.NtHdr.getAcc` |
| 443-448 | `pe_properties_generic<PEClassType>::set_os_version` | `Accessors.NtHdr.setAcc` |
| 451-455 | `pe_properties_generic<PEClassType>::get_minor_os_version` | `Accessors.NtHdr.getAcc` |
| 458-462 | `pe_properties_generic<PEClassType>::get_major_os_version` | `Accessors.NtHdr.getAcc` |
| 465-470 | `pe_properties_generic<PEClassType>::set_subsystem_version` | `Accessors.NtHdr.setAcc` |
| 473-477 | `pe_properties_generic<PEClassType>::get_minor_subsystem_version` | `Accessors.NtHdr.getAcc` |
| 480-484 | `pe_properties_generic<PEClassType>::get_major_subsystem_version` | `Accessors.NtHdr.getAcc` |
| 487-494 | `pe_properties_generic<PEClassType>::va_to_rva` | `Image.Image.vaToRva32` |
| 497-504 | `pe_properties_generic<PEClassType>::va_to_rva` | `Image.Image.vaToRva64` |
| 507-514 | `pe_properties_generic<PEClassType>::rva_to_va_32` | `Image.Image.rvaToVa32` |
| 517-521 | `pe_properties_generic<PEClassType>::rva_to_va_64` | `Image.Image.rvaToVa64` |
| 524-528 | `pe_properties_generic<PEClassType>::get_number_of_sections` | `Accessors.NtHdr.getAcc` |
| 531-535 | `pe_properties_generic<PEClassType>::set_number_of_sections` | `Accessors.NtHdr.setAcc` |
| 538-542 | `pe_properties_generic<PEClassType>::set_size_of_image` | `Accessors.NtHdr.setAcc` |
| 545-549 | `pe_properties_generic<PEClassType>::set_size_of_headers` | `Accessors.NtHdr.setAcc` |
| 552-556 | `pe_properties_generic<PEClassType>::set_size_of_optional_header` | `Accessors.NtHdr.setAcc` |
| 559-563 | `pe_properties_generic<PEClassType>::get_nt_headers_ptr` | `Image.Image` |
| 566-570 | `pe_properties_generic<PEClassType>::get_nt_headers_ptr` | `Image.Image` |
| 573-577 | `pe_properties_generic<PEClassType>::get_sizeof_nt_header` | `Image.Kind.sizeofNt` |
| 580-584 | `pe_properties_generic<PEClassType>::get_sizeof_opt_headers` | `Image.Kind.sizeofOpt` |
| 587-591 | `pe_properties_generic<PEClassType>::set_file_alignment_unchecked` | `Accessors.NtHdr.setAcc` |
| 594-598 | `pe_properties_generic<PEClassType>::set_base_of_code` | `Accessors.NtHdr.setAcc` |
| 601-605 | `pe_properties_generic<PEClassType>::get_base_of_code` | `Accessors.NtHdr.getAcc` |
| 608-612 | `pe_properties_generic<PEClassType>::get_needed_magic` | `Image.Kind.magic` |
| 615-619 | `pe_properties_generic<PEClassType>::get_pe_type` | `Image.Kind.magic` |

## pe_rebuilder.cpp

| lines | function | model |
|---|---|---|
| 14-81 | `rebuild_pe` | `Failing.rebuildHeadersM`, `Rebuild.Image.rebuildHeaders`, `Rebuild.Image.stripDos`, `Rebuild.Image.newLfanew`, `Rebuild.Image.tablePtr`, `Rebuild.NtHdr.dirGap`, ... |
| 87-170 | `rebuild_pe` | `Failing.rebuildPeM`, `Rebuild.Image.rebuildPe`, `SaveStream`, `SaveStream.rebuildPeO`, `Rebuild.Image.boundWanted`, `Rebuild.Image.checkBound`, ... |

## pe_relocations.cpp

| lines | function | model |
|---|---|---|
| 11-29 | `relocation_entry::relocation_entry` | `Plain.relocationEntryC`, `Reloc.RelocEntry.ofItem` |
| 32-35 | `relocation_entry::get_type` | `Plain.relocationEntryC` |
| 38-41 | `relocation_entry::set_rva` | `Plain.relocationEntryC` |
| 44-47 | `relocation_entry::set_type` | `Plain.relocationEntryC` |
| 50-53 | `relocation_entry::get_item` | `Reloc.RelocEntry.item` |
| 56-60 | `relocation_entry::set_item` | `Reloc.RelocEntry.ofItem` |
| 63-66 | `relocation_table::get_relocations` | `Plain.relocationTableC` |
| 69-72 | `relocation_table::add_relocation` | `Plain.relocationTableC` |
| 75-88 | `relocation_table::relocation_table` | `Plain.relocationTableC` |
| 91-94 | `relocation_table::set_rva` | `Plain.relocationTableC` |
| 97-100 | `relocation_table::get_relocations` | `Plain.relocationTableC` |
| 104-163 | `get_relocations` | `Mapped.relocationsC`, `Reloc.Image.getRelocations`, `Mapped.relocBlocksC`, `Reloc.Image.relocBlocks`, `Mapped.relocEntriesC`, `Reloc.Image.relocEntries` |
| 171-250 | `rebuild_relocations` | `Failing.rebuildRelocationsM`, `Reloc.Image.rebuildRelocations`, `Reloc.relocNeeded`, `Reloc.relocWriteTables`, `Reloc.relocWriteEntries`, `Failing.saveRelocM` |
| 253-258 | `rebase_image` | `Failing.rebaseM`, `Reloc.Image.rebase` |
| 266-301 | `rebase_image_base` | `Failing.rebaseM`, `Reloc.Image.rebase`, `Failing.rebaseTablesM`, `Failing.rebaseEntriesM`, `Reloc.Image.rebaseTables`, `Failing.rebaseOneM`, ... |

## pe_resource_manager.cpp

| lines | function | model |
|---|---|---|
| 14-21 | `pe_resource_manager::pe_resource_manager` | `Resources.ResDir` |
| 27-40 | `pe_resource_manager::remove_resource_type` | `ResourceManager.ResDir.removeType` |
| 42-55 | `pe_resource_manager::remove_resource` | `ResourceManager.ResDir.removeType` |
| 58-80 | `pe_resource_manager::remove_resource` | `ResourceManager.ResDir.removeName` |
| 85-88 | `pe_resource_manager::remove_resource` | `ResourceManager.ResDir.removeName` |
| 90-93 | `pe_resource_manager::remove_resource` | `ResourceManager.ResDir.removeName` |
| 98-101 | `pe_resource_manager::remove_resource` | `ResourceManager.ResDir.removeName` |
| 103-106 | `pe_resource_manager::remove_resource` | `ResourceManager.ResDir.removeName` |
| 109-141 | `pe_resource_manager::remove_resource` | `ResourceManager.ResDir.removeLang` |
| 146-149 | `pe_resource_manager::remove_resource` | `ResourceManager.ResDir.removeLang` |
| 151-154 | `pe_resource_manager::remove_resource` | `ResourceManager.ResDir.removeLang` |
| 159-162 | `pe_resource_manager::remove_resource` | `ResourceManager.ResDir.removeLang` |
| 164-167 | `pe_resource_manager::remove_resource` | `ResourceManager.ResDir.removeLang` |
| 170-176 | `pe_resource_manager::add_resource` | `ResourceManager.ResDir.addResource` |
| 179-185 | `pe_resource_manager::add_resource` | `ResourceManager.ResDir.addResource` |
| 188-228 | `pe_resource_manager::add_resource` | `ResourceManager.ResDir.addResource`, `ResourceManager.withKey`, `ResourceManager.putLang` |
| 231-237 | `pe_resource_manager::add_resource` | `ResourceManager.ResDir.addResource` |
| 240-246 | `pe_resource_manager::add_resource` | `ResourceManager.ResDir.addResource` |
| 249-255 | `pe_resource_manager::add_resource` | `ResourceManager.ResDir.addResource` |
| 258-264 | `pe_resource_manager::add_resource` | `ResourceManager.ResDir.addResource` |

## pe_resource_viewer.cpp

| lines | function | model |
|---|---|---|
| 11-18 | `pe_resource_viewer::pe_resource_viewer` | `Resources.ResDir` |
| 21-24 | `pe_resource_viewer::has_name::operator` | `ResourceManager.nameList` |
| 26-29 | `pe_resource_viewer::has_id::operator` | `ResourceManager.idList` |
| 32-46 | `pe_resource_viewer::list_resource_types` | `ResourceManager.ResDir.listTypes` |
| 49-53 | `pe_resource_viewer::resource_exists` | `ResourceManager.ResDir.resourceExists` |
| 56-60 | `pe_resource_viewer::resource_exists` | `ResourceManager.ResDir.resourceExists` |
| 63-75 | `pe_resource_viewer::get_name_list` | `ResourceManager.nameList` |
| 78-90 | `pe_resource_viewer::get_id_list` | `ResourceManager.idList` |
| 93-96 | `pe_resource_viewer::list_resource_names` | `ResourceManager.ResDir.listNames`, `ResourceManager.ResDir.typeDir` |
| 99-102 | `pe_resource_viewer::list_resource_names` | `ResourceManager.ResDir.listNames` |
| 105-108 | `pe_resource_viewer::list_resource_ids` | `ResourceManager.ResDir.listIds` |
| 111-114 | `pe_resource_viewer::list_resource_ids` | `ResourceManager.ResDir.listIds` |
| 117-125 | `pe_resource_viewer::get_resource_count` | `ResourceManager.ResDir.resourceCount` |
| 128-136 | `pe_resource_viewer::get_resource_count` | `ResourceManager.ResDir.resourceCount` |
| 139-150 | `pe_resource_viewer::get_language_count` | `ResourceManager.ResDir.nameDir`, `ResourceManager.ResDir.languageCount` |
| 153-164 | `pe_resource_viewer::get_language_count` | `ResourceManager.ResDir.languageCount` |
| 167-178 | `pe_resource_viewer::get_language_count` | `ResourceManager.ResDir.languageCount` |
| 181-192 | `pe_resource_viewer::get_language_count` | `ResourceManager.ResDir.languageCount` |
| 195-206 | `pe_resource_viewer::list_resource_languages` | `ResourceManager.ResDir.listLanguages` |
| 209-220 | `pe_resource_viewer::list_resource_languages` | `ResourceManager.ResDir.listLanguages` |
| 223-234 | `pe_resource_viewer::list_resource_languages` | `ResourceManager.ResDir.listLanguages` |
| 237-248 | `pe_resource_viewer::list_resource_languages` | `ResourceManager.ResDir.listLanguages` |
| 251-260 | `pe_resource_viewer::get_resource_data_by_name` | `ResourceManager.ResDir.getData` |
| 263-272 | `pe_resource_viewer::get_resource_data_by_name` | `ResourceManager.ResDir.getData` |
| 275-284 | `pe_resource_viewer::get_resource_data_by_id` | `ResourceManager.ResDir.getData` |
| 287-296 | `pe_resource_viewer::get_resource_data_by_id` | `ResourceManager.ResDir.getData` |
| 299-312 | `pe_resource_viewer::get_resource_data_by_name` | `ResourceManager.ResDir.getDataAt` |
| 315-328 | `pe_resource_viewer::get_resource_data_by_name` | `ResourceManager.ResDir.getDataAt` |
| 331-344 | `pe_resource_viewer::get_resource_data_by_id` | `ResourceManager.ResDir.getDataAt` |
| 347-360 | `pe_resource_viewer::get_resource_data_by_id` | `ResourceManager.ResDir.getDataAt` |

## pe_resources.cpp

| lines | function | model |
|---|---|---|
| 11-24 | `resource_data_entry::resource_data_entry` | `Plain.resourceDataEntryC`, `ResourceObjects.RCell`, `ResourceObjects.RState.dataOf` |
| 27-30 | `resource_data_entry::get_data` | `Plain.resourceDataEntryC`, `ResourceObjects.RCell`, `ResourceObjects.RState.dataOf` |
| 33-36 | `resource_data_entry::set_codepage` | `Plain.resourceDataEntryC`, `ResourceObjects.RCell` |
| 39-42 | `resource_data_entry::set_data` | `Plain.resourceDataEntryC`, `ResourceObjects.RCell` |
| 45-66 | `resource_directory_entry::includes::includes` | `ResourceObjects.EObj`, `ResourceObjects.RState.step`, `ResourceObjects.copyObj`, `Resources.ResEntry`, `ResourceObjects.copyPtr` |
| 69-88 | `resource_directory_entry::operator=` | `ResourceObjects.RState.assign`, `ResourceObjects.RState.step`, `Resources.ResEntry`, `ResourceObjects.copyPtr` |
| 91-103 | `resource_directory_entry::release` | `ResourceObjects.releasePtr`, `ResourceObjects.RState.release`, `ResourceObjects.RState.step`, `Resources.ResEntry` |
| 106-109 | `resource_directory_entry::~resource_directory_entry` | `ResourceObjects.releasePtr`, `ResourceObjects.releaseObj`, `ResourceObjects.RState.step`, `Resources.ResEntry` |
| 112-115 | `resource_directory_entry::get_id` | `ResourceObjects.RState.step`, `ResourceObjects.RState.keyOf`, `Resources.ResKey`, `Resources.ResEntry.key` |
| 118-121 | `resource_directory_entry::get_name` | `ResourceObjects.RState.step`, `ResourceObjects.RState.keyOf`, `Resources.ResKey`, `Resources.ResEntry.key` |
| 125-128 | `resource_directory_entry::is_named` | `ResourceObjects.RState.step`, `ResourceObjects.RState.keyOf`, `Resources.ResKey`, `Resources.ResEntry.key`, `Resources.ResEntry.isNamed` |
| 132-135 | `resource_directory_entry::includes_data` | `ResourceObjects.RState.step` |
| 138-144 | `resource_directory_entry::get_resource_directory` | `ResourceObjects.EObj.dirPtr`, `ResourceObjects.RState.step`, `ResourceObjects.RState.hdrOf`, `Resources.ResEntry.getDir` |
| 147-153 | `resource_directory_entry::get_data_entry` | `ResourceObjects.EObj.dataPtr`, `ResourceObjects.RState.step`, `ResourceObjects.RState.dataOf`, `Resources.ResEntry.getData` |
| 156-162 | `resource_directory_entry::get_resource_directory` | `ResourceObjects.EObj.dirPtr`, `ResourceObjects.Heap.walk`, `ResourceObjects.RState.step`, `ResourceObjects.RState.hdrOf`, `Resources.ResEntry.getDir` |
| 165-171 | `resource_directory_entry::get_data_entry` | `ResourceObjects.EObj.dataPtr`, `ResourceObjects.RState.step`, `ResourceObjects.RState.dataOf`, `Resources.ResEntry.getData` |
| 174-179 | `resource_directory_entry::set_name` | `ResourceObjects.EObj`, `ResourceObjects.RState.step` |
| 182-187 | `resource_directory_entry::set_id` | `ResourceObjects.EObj`, `ResourceObjects.RState.step` |
| 190-195 | `resource_directory_entry::add_data_entry` | `ResourceObjects.RState.addData`, `ResourceObjects.RState.step` |
| 198-203 | `resource_directory_entry::add_resource_directory` | `ResourceObjects.RState.addDir`, `ResourceObjects.RState.step` |
| 206-225 | `resource_directory::resource_directory` | `Plain.resourceDirectoryC`, `ResourceObjects.RCell`, `ResourceObjects.RState.hdrOf` |
| 228-231 | `resource_directory::get_timestamp` | `Plain.resourceDirectoryC`, `ResourceObjects.RState.hdrOf` |
| 234-237 | `resource_directory::get_major_version` | `Plain.resourceDirectoryC`, `ResourceObjects.RState.hdrOf` |
| 240-243 | `resource_directory::get_minor_version` | `Plain.resourceDirectoryC`, `ResourceObjects.RState.hdrOf` |
| 246-249 | `resource_directory::get_number_of_named_entries` | `Plain.resourceDirectoryC`, `ResourceObjects.RState.hdrOf` |
| 252-255 | `resource_directory::get_number_of_id_entries` | `Plain.resourceDirectoryC`, `ResourceObjects.RState.hdrOf` |
| 258-261 | `resource_directory::get_entry_list` | `Plain.resourceDirectoryC`, `ResourceObjects.RState.hdrOf` |
| 264-267 | `resource_directory::get_entry_list` | `Plain.resourceDirectoryC`, `ResourceObjects.Heap.walk`, `ResourceObjects.RState.hdrOf` |
| 270-277 | `resource_directory::add_resource_directory_entry` | `ResourceObjects.ResHdr.bump`, `ResourceObjects.RState.push`, `ResourceObjects.RState.step`, `Resources.ResDir.add` |
| 280-285 | `resource_directory::clear_resource_directory_entry_list` | `ResourceObjects.Heap.clearDir`, `ResourceObjects.RState.step` |
| 288-291 | `resource_directory::set_characteristics` | `Plain.resourceDirectoryC`, `ResourceObjects.RState.step` |
| 294-297 | `resource_directory::set_timestamp` | `Plain.resourceDirectoryC`, `ResourceObjects.RState.step` |
| 300-303 | `resource_directory::set_number_of_named_entries` | `Plain.resourceDirectoryC`, `ResourceObjects.RState.step` |
| 306-309 | `resource_directory::set_number_of_id_entries` | `Plain.resourceDirectoryC`, `ResourceObjects.RState.step` |
| 312-315 | `resource_directory::set_major_version` | `Plain.resourceDirectoryC`, `ResourceObjects.RState.step` |
| 318-321 | `resource_directory::get_minor_version` | `Plain.resourceDirectoryC`, `ResourceObjects.RState.step` |
| 324-419 | `process_resource_directory` | `Resources.Image.resDir`, `Resources.Image.resEntry`, `Resources.Image.resEntries`, `Resources.Image.resKey`, `Resources.Image.resName`, `Resources.Image.resData` |
| 422-435 | `calculate_resource_data_space` | `Resources.ResEntry.structs`, `Resources.ResEntry.strings`, `Resources.ResKey.space`, `Resources.ResEntry.complete` |
| 438-455 | `calculate_resource_data_space` | `Resources.ResEntry.dataPos` |
| 465-554 | `rebuild_resource_directory` | `Failing.putDirM`, `Resources.resHdrBytes`, `Resources.putDir`, `Resources.ResEntry.sort`, `Sort`, `Resources.countNamed`, ... |
| 557-565 | `entry_sorter::operator` | `Resources.ResKey.lt` |
| 575-629 | `rebuild_resources` | `Failing.rebuildResourcesM`, `Resources.Image.rebuildResources`, `DirWrite.Image.spaceCheck`, `DirWrite.Image.finishDir`, `Failing.finishDirM` |
| 632-649 | `get_resources` | `Resources.Image.getResources` |
| 652-659 | `resource_directory::id_entry_finder::id_entry_finder` | `ResourceManager`, `ResourceManager.ResEntry.hasKey` |
| 662-669 | `resource_directory::name_entry_finder::name_entry_finder` | `ResourceManager`, `ResourceManager.ResEntry.hasKey` |
| 672-686 | `resource_directory::entry_finder::entry_finder` | `ResourceManager`, `ResourceManager.ResEntry.hasKey` |
| 689-696 | `resource_directory::entry_by_id` | `ResourceManager`, `ResourceManager.ResDir.entryBy` |
| 699-706 | `resource_directory::entry_by_name` | `ResourceManager`, `ResourceManager.ResDir.entryBy` |

## pe_rich_data.cpp

| lines | function | model |
|---|---|---|
| 7-15 | `rich_data::rich_data` | `Plain.richDataC` |
| 17-20 | `rich_data::get_version` | `Plain.richDataC` |
| 22-25 | `rich_data::get_times` | `Plain.richDataC` |
| 27-30 | `rich_data::set_number` | `Plain.richDataC` |
| 32-35 | `rich_data::set_version` | `Plain.richDataC` |
| 37-40 | `rich_data::set_times` | `Plain.richDataC` |
| 43-130 | `get_rich_data` | `Rich.richOf`, `Rich.richId`, `Rich.findWord`, `Rich.dansId`, `Rich.richLoop` |

## pe_section.cpp

| lines | function | model |
|---|---|---|
| 11-15 | `section::section` | `Section.Sec` |
| 18-22 | `section::set_name` | `Section.Sec.setName` |
| 25-30 | `section::get_name` | `Section.Sec.getName` |
| 33-41 | `section::set_flag` | `Section.Sec.setFlag` |
| 44-47 | `section::readable` | `Section.Attr.mask`, `Section.Sec.setAttr` |
| 50-53 | `section::writeable` | `Section.Attr.mask`, `Section.Sec.setAttr` |
| 56-59 | `section::executable` | `Section.Attr.mask`, `Section.Sec.setAttr` |
| 62-65 | `section::shared` | `Section.Attr.mask`, `Section.Sec.setAttr` |
| 68-71 | `section::discardable` | `Section.Attr.mask`, `Section.Sec.setAttr` |
| 74-77 | `section::readable` | `Section.Attr.mask`, `Section.Sec.getAttr` |
| 80-83 | `section::writeable` | `Section.Attr.mask`, `Section.Sec.getAttr` |
| 86-89 | `section::executable` | `Section.Attr.mask`, `Section.Sec.getAttr` |
| 91-94 | `section::shared` | `Section.Attr.mask`, `Section.Sec.getAttr` |
| 96-99 | `section::discardable` | `Section.Attr.mask`, `Section.Sec.getAttr` |
| 102-108 | `section::empty` | `Mapped.MImage.perform`, `Section.Sec.empty`, `Section.SecObj.isEmpty` |
| 111-115 | `section::get_raw_data` | `Mapped.MImage.perform`, `Section.SecObj.getRawData` |
| 118-122 | `section::set_raw_data` | `Mapped.MImage.perform`, `Mapped.MImage.change`, `Section.SecObj.setRawData` |
| 125-129 | `section::get_raw_data` | `Mapped.MImage.perform`, `Section.SecObj.getRawData` |
| 132-136 | `section::get_virtual_data` | `Mapped.MImage.perform`, `Section.Sec.virt`, `Section.SecObj.getVirtualData` |
| 139-143 | `section::get_virtual_data` | `Mapped.MImage.perform`, `Section.Sec.virt`, `Section.SecObj.getVirtualData` |
| 146-154 | `section::map_virtual` | `Section.Sec.virt`, `Section.SecObj.mapVirtual` |
| 157-164 | `section::unmap_virtual` | `Section.SecObj.unmapVirtual` |
| 167-170 | `section::get_virtual_size` | `Section.Sec` |
| 173-176 | `section::get_virtual_address` | `Section.Sec` |
| 179-182 | `section::get_size_of_raw_data` | `Section.Sec` |
| 185-188 | `section::get_pointer_to_raw_data` | `Section.Sec` |
| 191-194 | `section::get_characteristics` | `Section.Sec` |
| 197-200 | `section::get_raw_header` | `Section.Sec` |
| 203-206 | `section::get_raw_header` | `Section.Sec` |
| 209-222 | `section::get_aligned_virtual_size` | `Section.Sec.alignedVS` |
| 225-231 | `section::get_aligned_raw_size` | `Section.Sec.alignedRS` |
| 234-237 | `section::set_size_of_raw_data` | `Section.Sec` |
| 240-243 | `section::set_pointer_to_raw_data` | `Section.Sec` |
| 246-249 | `section::set_characteristics` | `Section.Sec`, `Section.SecObj.setVirtualSize` |
| 252-255 | `section::set_virtual_size` | `Section.Sec`, `Section.SecObj.setVirtualSize` |
| 258-261 | `section::set_virtual_address` | `Section.Sec`, `Section.SecObj.setVirtualSize` |
| 264-272 | `section_by_raw_offset::section_by_raw_offset` | `Section.Sec`, `Section.SecObj.setVirtualSize`, `Rva.Sec.containsOffset` |
| 274-281 | `section_ptr_finder::section_ptr_finder` | `Rva.Image.sectionAttached` |

## pe_tls.cpp

| lines | function | model |
|---|---|---|
| 11-20 | `tls_info::tls_info` | `Plain.tlsInfoC`, `Plain.Cls.get` |
| 23-26 | `tls_info::get_raw_data_end_rva` | `Plain.tlsInfoC` |
| 29-32 | `tls_info::get_index_rva` | `Plain.tlsInfoC` |
| 35-38 | `tls_info::get_callbacks_rva` | `Plain.tlsInfoC` |
| 41-44 | `tls_info::get_size_of_zero_fill` | `Plain.tlsInfoC` |
| 47-50 | `tls_info::get_characteristics` | `Plain.tlsInfoC` |
| 53-56 | `tls_info::get_raw_data` | `Plain.tlsInfoC` |
| 59-62 | `tls_info::get_tls_callbacks` | `Plain.tlsInfoC` |
| 65-68 | `tls_info::get_tls_callbacks` | `Plain.tlsInfoC` |
| 71-74 | `tls_info::add_tls_callback` | `Plain.pushV`, `Plain.tlsInfoC` |
| 77-80 | `tls_info::clear_tls_callbacks` | `Plain.clearV`, `Plain.tlsInfoC` |
| 83-86 | `tls_info::recalc_raw_data_end_rva` | `Tls.TlsInfo.recalcStop` |
| 89-92 | `tls_info::set_raw_data_start_rva` | `Plain.store`, `Plain.Cls.setM`, `Plain.tlsInfoC` |
| 95-98 | `tls_info::set_raw_data_end_rva` | `Plain.tlsInfoC` |
| 101-104 | `tls_info::set_index_rva` | `Plain.tlsInfoC` |
| 107-110 | `tls_info::set_callbacks_rva` | `Plain.tlsInfoC` |
| 113-116 | `tls_info::set_size_of_zero_fill` | `Plain.tlsInfoC` |
| 119-122 | `tls_info::set_characteristics` | `Plain.tlsInfoC` |
| 125-128 | `tls_info::set_raw_data` | `Plain.tlsInfoC` |
| 131-136 | `get_tls_info` | `Tls.Image.getTls` |
| 139-144 | `rebuild_tls` | `Failing.rebuildTlsM`, `Tls.Image.rebuildTls` |
| 148-219 | `get_tls_info_base` | `Tls.Image.getTls`, `Tls.Image.tlsFixed`, `Tls.Image.tlsCheck`, `Tls.Image.rvaOrZero`, `Tls.Image.tlsRaw`, `Tls.Image.tlsCallbacks`, ... |
| 228-374 | `rebuild_tls_base` | `Failing.rebuildTlsM`, `Tls.Image.rebuildTls`, `DirWrite.Image.spaceCheck`, `Tls.Image.tlsStruct`, `Tls.Image.vaOrZero`, `Failing.tlsPutDataM`, ... |

## resource_bitmap_reader.cpp

| lines | function | model |
|---|---|---|
| 10-18 | `resource_bitmap_reader::resource_bitmap_reader` | `ResourceData.ResDir.getBitmapAt` |
| 21-24 | `resource_bitmap_reader::get_bitmap_by_name` | `ResourceData.ResDir.getBitmap` |
| 27-30 | `resource_bitmap_reader::get_bitmap_by_id_lang` | `ResourceData.ResDir.getBitmap` |
| 33-36 | `resource_bitmap_reader::get_bitmap_by_id` | `ResourceData.ResDir.getBitmapAt` |
| 39-64 | `resource_bitmap_reader::create_bitmap` | `ResourceData.createBitmap`, `ResourceData.bitmapOffBits` |

## resource_bitmap_writer.cpp

| lines | function | model |
|---|---|---|
| 9-26 | `resource_bitmap_writer::resource_bitmap_writer` | `ResourceData.ResDir.addBitmap` |
| 30-41 | `resource_bitmap_writer::add_bitmap` | `ResourceData.ResDir.addBitmap` |
| 44-47 | `resource_bitmap_writer::remove_bitmap` | `ResourceData.ResDir.removeBitmap` |
| 50-53 | `resource_bitmap_writer::remove_bitmap` | `ResourceData.ResDir.removeBitmap` |

## resource_cursor_icon_reader.cpp

| lines | function | model |
|---|---|---|
| 10-58 | `resource_cursor_icon_reader::resource_cursor_icon_reader` | `Icons.icRead`, `Icons.icHeaders`, `Icons.IcKind.fileEntry` |
| 61-68 | `resource_cursor_icon_reader::get_single_icon_by_id_lang` | `Icons.ResDir.getSingle` |
| 71-82 | `resource_cursor_icon_reader::get_single_icon_by_id` | `Icons.ResDir.getSingleAt` |
| 85-103 | `resource_cursor_icon_reader::get_icon_by_name` | `Icons.ResDir.getIconsAt`, `Icons.icBodies`, `Icons.IcKind.image` |
| 106-124 | `resource_cursor_icon_reader::get_icon_by_name` | `Icons.ResDir.getIcons` |
| 127-145 | `resource_cursor_icon_reader::get_icon_by_id_lang` | `Icons.ResDir.getIcons` |
| 148-166 | `resource_cursor_icon_reader::get_icon_by_id` | `Icons.ResDir.getIconsAt` |
| 169-211 | `resource_cursor_icon_reader::check_icon_presence` | `Icons.icPresence`, `Icons.IcKind.searched`, `Icons.icSearch` |
| 214-244 | `resource_cursor_icon_reader::lookup_icon_group_data_by_icon` | `Icons.ResDir.icGroupOf`, `Icons.ResDir.icLookup` |
| 247-255 | `resource_cursor_icon_reader::get_single_cursor_by_id_lang` | `Icons.ResDir.getSingle` |
| 258-270 | `resource_cursor_icon_reader::get_single_cursor_by_id` | `Icons.ResDir.getSingleAt` |
| 274-327 | `resource_cursor_icon_reader::format_cursor_headers` | `Icons.icHeaders`, `Icons.IcKind.fileEntry`, `Icons.IcKind.hotspot` |
| 330-348 | `resource_cursor_icon_reader::get_cursor_by_name` | `Icons.ResDir.getIcons`, `Icons.icBodies`, `Icons.IcKind.image` |
| 351-369 | `resource_cursor_icon_reader::get_cursor_by_name` | `Icons.ResDir.getIconsAt` |
| 372-390 | `resource_cursor_icon_reader::get_cursor_by_id_lang` | `Icons.ResDir.getIcons` |
| 393-411 | `resource_cursor_icon_reader::get_cursor_by_id` | `Icons.ResDir.getIconsAt` |
| 414-466 | `resource_cursor_icon_reader::check_cursor_presence` | `Icons.IcKind.searched`, `Icons.icSearch` |
| 469-499 | `resource_cursor_icon_reader::lookup_cursor_group_data_by_cursor` | `Icons.ResDir.icLookup` |

## resource_cursor_icon_writer.cpp

| lines | function | model |
|---|---|---|
| 9-103 | `resource_cursor_icon_writer::resource_cursor_icon_writer` | `Icons.ResDir.addIcons`, `Icons.icFileCheck`, `Icons.icCheckEntries`, `Icons.icGroupStart`, `Icons.icAddAll`, `Icons.icOne`, ... |
| 106-167 | `resource_cursor_icon_writer::get_icon_or_cursor_free_id_list` | `Icons.ResDir.freeIds`, `Icons.freeBelow`, `Icons.gaps`, `Icons.firstGap`, `Icons.pushRange`, `Icons.nextGap`, ... |
| 170-263 | `resource_cursor_icon_writer::add_cursor` | `Icons.ResDir.addIcons`, `Icons.icFileCheck`, `Icons.icCheckEntries`, `Icons.icGroupStart`, `Icons.icAddAll`, `Icons.icOne`, ... |
| 270-285 | `resource_cursor_icon_writer::add_icon` | `Icons.ResDir.addIcons`, `Icons.ResDir.groupData` |
| 287-302 | `resource_cursor_icon_writer::add_icon` | `Icons.ResDir.addIcons` |
| 309-324 | `resource_cursor_icon_writer::add_cursor` | `Icons.ResDir.addIcons` |
| 326-341 | `resource_cursor_icon_writer::add_cursor` | `Icons.ResDir.addIcons` |
| 344-365 | `resource_cursor_icon_writer::remove_icons_from_icon_group` | `Icons.icRemoveAll` |
| 368-389 | `resource_cursor_icon_writer::remove_cursors_from_cursor_group` | `Icons.icRemoveAll` |
| 392-398 | `resource_cursor_icon_writer::remove_cursor_group` | `Icons.ResDir.removeGroup` |
| 401-407 | `resource_cursor_icon_writer::remove_cursor_group` | `Icons.ResDir.removeGroup` |
| 410-416 | `resource_cursor_icon_writer::remove_icon_group` | `Icons.ResDir.removeGroup` |
| 419-425 | `resource_cursor_icon_writer::remove_icon_group` | `Icons.ResDir.removeGroup` |

## resource_data_info.cpp

| lines | function | model |
|---|---|---|
| 7-20 | `resource_data_info::resource_data_info` | `Plain.resourceDataInfoC` |
| 23-26 | `resource_data_info::get_codepage` | `Plain.resourceDataInfoC` |

## resource_message_list_reader.cpp

| lines | function | model |
|---|---|---|
| 8-97 | `resource_message_list_reader::resource_message_list_reader` | `ResourceData.parseMessageList`, `ResourceData.messageBlocks`, `ResourceData.messageEntries`, `ResourceData.messageText` |
| 100-103 | `resource_message_list_reader::get_message_table_by_id` | `ResourceData.ResDir.messageTableAt` |
| 106-109 | `resource_message_list_reader::get_message_table_by_id_lang` | `ResourceData.ResDir.messageTable` |

## resource_string_table_reader.cpp

| lines | function | model |
|---|---|---|
| 6-14 | `resource_string_table_reader::resource_string_table_reader` | `ResourceData.ResDir.stringTableAt` |
| 17-20 | `resource_string_table_reader::get_string_table_by_id_lang` | `ResourceData.ResDir.stringTable` |
| 23-63 | `resource_string_table_reader::parse_string_list` | `ResourceData.parseStringList`, `ResourceData.stringList` |
| 66-75 | `resource_string_table_reader::get_string_by_id_lang` | `ResourceData.ResDir.stringById` |
| 78-87 | `resource_string_table_reader::get_string_by_id` | `ResourceData.ResDir.stringByIdAt` |

## resource_version_info_reader.cpp

| lines | function | model |
|---|---|---|
| 14-32 | `resource_version_info_reader::resource_version_info_reader` | `VersionInfo.viValuePos` |
| 35-49 | `resource_version_info_reader::get_version_block_first_child_pos` | `VersionInfo.viChildPos` |
| 52-55 | `resource_version_info_reader::throw_incorrect_version_info` | `VersionInfo.viFixed` |
| 61-252 | `resource_version_info_reader::get_version_info` | `VersionInfo.viRead`, `VersionInfo.viFixed`, `VersionInfo.viWalk`, `VersionInfo.viKey`, `VersionInfo.viChild`, `VersionInfo.viTable`, ... |
| 258-270 | `resource_version_info_reader::get_version_info_by_lang` | `VersionInfo.ResDir.versionInfo` |
| 276-289 | `resource_version_info_reader::get_version_info` | `VersionInfo.ResDir.versionInfoAt` |

## resource_version_info_writer.cpp

| lines | function | model |
|---|---|---|
| 13-255 | `resource_version_info_writer::resource_version_info_writer` | `VersionInfo.ResDir.setVersionInfo`, `VersionInfo.viWrite`, `VersionInfo.viTotal`, `VersionInfo.viStringsSize`, `VersionInfo.viTableSize`, `VersionInfo.viStrSize`, ... |
| 258-261 | `resource_version_info_writer::remove_version_info` | `VersionInfo.ResDir.removeVersionInfo` |

## utils.cpp

| lines | function | model |
|---|---|---|
| 14-23 | `pe_utils::get_file_size` | `StreamUse`, `StreamUse.Stream.fileSize` |
| 26-50 | `pe_utils::to_ucs2` | `Ucs2`, `Ucs2.toUcs2` |
| 52-76 | `pe_utils::from_ucs2` | `Ucs2`, `Ucs2.fromUcs2` |
| 79-85 | `operator==` | `Debug.guidEq` |

## version_info_editor.cpp

| lines | function | model |
|---|---|---|
| 12-26 | `version_info_editor::version_info_editor` | `VersionInfo.VerInfo.set` |
| 29-32 | `version_info_editor::set_file_description` | `VersionInfo.VerInfo.set` |
| 35-38 | `version_info_editor::set_file_version` | `VersionInfo.VerInfo.set` |
| 41-44 | `version_info_editor::set_internal_name` | `VersionInfo.VerInfo.set` |
| 47-50 | `version_info_editor::set_legal_copyright` | `VersionInfo.VerInfo.set` |
| 53-56 | `version_info_editor::set_original_filename` | `VersionInfo.VerInfo.set` |
| 59-62 | `version_info_editor::set_product_name` | `VersionInfo.VerInfo.set` |
| 65-68 | `version_info_editor::set_product_version` | `VersionInfo.VerInfo.set` |
| 75-107 | `version_info_editor::set_property` | `VersionInfo.VerInfo.set`, `VersionInfo.VerInfo.select`, `VersionInfo.VerInfo.addTable` |
| 110-114 | `version_info_editor::add_translation` | `VersionInfo.VerInfo.addTranslation` |
| 116-129 | `version_info_editor::add_translation` | `VersionInfo.addTrans` |
| 132-136 | `version_info_editor::remove_translation` | `VersionInfo.VerInfo.removeTranslation` |
| 138-162 | `version_info_editor::remove_translation` | `VersionInfo.VerInfo.removeIds`, `VersionInfo.transName` |

## version_info_viewer.cpp

| lines | function | model |
|---|---|---|
| 14-26 | `version_info_viewer::version_info_viewer` | `VersionInfo.VerInfo` |
| 29-32 | `version_info_viewer::get_file_description` | `VersionInfo.VerInfo.get` |
| 35-38 | `version_info_viewer::get_file_version` | `VersionInfo.VerInfo.get` |
| 41-44 | `version_info_viewer::get_internal_name` | `VersionInfo.VerInfo.get` |
| 47-50 | `version_info_viewer::get_legal_copyright` | `VersionInfo.VerInfo.get` |
| 53-56 | `version_info_viewer::get_original_filename` | `VersionInfo.VerInfo.get` |
| 59-62 | `version_info_viewer::get_product_name` | `VersionInfo.VerInfo.get` |
| 65-68 | `version_info_viewer::get_product_version` | `VersionInfo.VerInfo.get` |
| 71-89 | `version_info_viewer::get_translation_list` | `VersionInfo.VerInfo.transList`, `VersionInfo.transName` |
| 95-143 | `version_info_viewer::get_property` | `VersionInfo.VerInfo.get`, `VersionInfo.VerInfo.table` |
| 146-158 | `version_info_viewer::translation_from_string` | `VersionInfo.hexParse`, `VersionInfo.transIds` |
